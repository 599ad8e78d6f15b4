import Verif.Props.Commit
import Verif.Props.Received

/-!
# C112: signatures as byte strings

A signature scheme on top of the library, with any hash function: the key and the nonce point are encoded, the challenge is the hash of both encodings and
the message, the response is serialised. The programs below are what a user of the library writes.
-/

set_option linter.unusedSectionVars false

namespace Redox.Props.Sign

open Spec Redox.Inst Redox.Props.Flow Redox.Props.Threshold Redox.Props.Commit Redox.Props.Ed

theorem dvd_iff_of_mod (r v k h h' a : ℤ) : r ∣ v - (k + h' * a) ↔ r ∣ v - (k + h * a) % r - (h' - h) * a := by
  have e1 : v - (k + h * a) % r - (h' - h) * a = v - (k + h' * a) + r * ((k + h * a) / r) := by
    have := Int.emod_add_mul_ediv (k + h * a) r
    linear_combination -this
  rw [e1, dvd_add_left (dvd_mul_right _ _)]

theorem beValue_cons (bs : List Byte) : beValue (0 :: bs) = beValue bs := by
  rw [beValue, beValue, List.foldl_cons]
  rfl

theorem beValue_inj : ∀ bs cs : List Byte, bs.length = cs.length → beValue bs = beValue cs → bs = cs := by
  intro bs cs hl hv
  rw [beValue_eq, beValue_eq] at hv
  exact Big.fromBytesBE_inj hl hv

theorem leValue_inj (bs cs : List Byte) (hl : bs.length = cs.length) (hv : leValue bs = leValue cs) : bs = cs := by
  rw [leValue_eq, leValue_eq] at hv
  exact Big.fromBytesLE_inj hl hv

theorem leValue_snoc (bs : List Byte) : leValue (bs ++ [0]) = leValue bs := by
  rw [leValue, leValue, List.reverse_append, List.reverse_singleton, List.singleton_append, beValue_cons]

section
variable (p : ℕ) [Fact p.Prime]

/-- Signing a message with the secret `a` and the nonce `k` on a Weierstrass curve: the encoded key, the encoded nonce point, the response in big-endian order. -/
def wSign (prof : Profile) (e : Weierstrass.Curve) (H : List Byte → ℤ) (c : Bool) (a k : ℤ) (msg : List Byte) : R (List Byte × List Byte × List Byte) := do
  let sa ← e.newScalar a
  let sk ← e.newScalar k
  let pk ← (← (← e.getGenerator).mul prof sa).encode c
  let nonce ← (← (← e.getGenerator).mul prof sk).encode c
  let s ← sk.add (← (← e.newScalar (H (nonce ++ pk ++ msg))).mul sa)
  let sb ← s.toBytesBE
  return (pk, nonce, sb)

/-- Verification of a signature. -/
def wVerify (prof : Profile) (e : Weierstrass.Curve) (H : List Byte → ℤ) (msg pk nonce sb : List Byte) : R Bool := do
  let A ← unwrap (e.decode pk)
  let K ← unwrap (e.decode nonce)
  let s ← e.newScalar (Big.fromBytesBE sb)
  let h ← e.newScalar (H (nonce ++ pk ++ msg))
  (← (← e.getGenerator).mul prof s).eq (← K.add (← A.mul prof h))

/-- C112, Weierstrass: signing returns; its key and nonce point, verified with any message and any response, give a verdict, which is true exactly if the
difference of the responses is the secret times the difference of the challenges, modulo the order. -/
theorem _root_.Redox.Props.C112_weierstrass (e : Weierstrass.Curve) (h : WValid p e) (hs : p % 4 = 3 ∨ p % 8 = 5) (prof : Profile) (H : List Byte → ℤ)
    (c : Bool) (a k : ℤ) (ha : ¬ (e.getOrder : ℤ) ∣ a) (hk : ¬ (e.getOrder : ℤ) ∣ k) (msg : List Byte) :
    ∃ pk nonce sb, wSign prof e H c a k msg = R.ok (pk, nonce, sb) ∧ sb.length = (Big.bits e.getOrder + 7) / 8 ∧ beValue sb < e.getOrder ∧
      ∀ msg' sb', ((¬ (e.getOrder : ℤ) ∣ beValue sb' ∧ ¬ (e.getOrder : ℤ) ∣ H (nonce ++ pk ++ msg')) ∨ prof = .release) →
        wVerify prof e H msg' pk nonce sb' =
          R.ok (decide ((e.getOrder : ℤ) ∣ ((beValue sb' : ℤ) - beValue sb) - (H (nonce ++ pk ++ msg') - H (nonce ++ pk ++ msg)) * a)) := by
  have hr1 : 1 ≤ e.r := h.order_prime.one_le
  simp only [Weierstrass.Curve.getOrder] at ha hk ⊢
  obtain ⟨G, g, hG, hg, -⟩ := h.generator
  obtain ⟨ho, hgk⟩ := w_gen p e h hG hg
  have hkill : ∀ k : ℤ, e.r • (k • g) = 0 := fun k => by rw [smul_comm, hgk, zsmul_zero]
  have round : ∀ P B, WDenotes p e P B → B ≠ 0 → ∀ c, ∃ bs Q, P.encode c = R.ok bs ∧ e.decode bs = R.ok (.ok Q) ∧ WDenotes p e Q B := by
    intro P B hP hB c
    obtain ⟨bs, Q, h1, -, h3, h4, -⟩ := C28_roundtrip_partial p e h.curve hs P B hP hB c
    exact ⟨bs, Q, h1, h3, h4⟩
  obtain ⟨sa, A, hsa, hA, dA⟩ := w_mul p e h prof hg hgk a (Or.inl ha)
  obtain ⟨sk, K, hsk, hK, dK⟩ := w_mul p e h prof hg hgk k (Or.inl hk)
  obtain ⟨pk, A', eA, hA', dA'⟩ := round A _ dA (smul_ne ho ha) c
  obtain ⟨nonce, K', eK, hK', dK'⟩ := round K _ dK (smul_ne ho hk) c
  have hmk : ∀ a, e.newScalar a = R.ok ⟨a % e.r, e.r⟩ := scalar_new_eq e.r hr1
  have hsum : Scalar.add ⟨k % e.r, e.r⟩ ⟨H (nonce ++ pk ++ msg) * a % e.r, e.r⟩ = R.ok ⟨(k + H (nonce ++ pk ++ msg) * a) % e.r, e.r⟩ := scalar_add_new hr1 _ _
  obtain ⟨bs, hbs, hbs', hlen, hv, -⟩ := C21_serialize e.r hr1 ⟨(k + H (nonce ++ pk ++ msg) * a) % e.r, e.r⟩
    ⟨rfl, Int.emod_nonneg _ (by omega), Int.emod_lt_of_pos _ (by omega)⟩
  have hval : (beValue bs : ℤ) = (k + H (nonce ++ pk ++ msg) * a) % e.r := by
    exact hv
  refine ⟨pk, nonce, bs, ?_, by simpa using hlen, ?_, fun msg' sb' h0 => ?_⟩
  · rw [hmk, R.ok.injEq] at hsa hsk
    subst hsa hsk
    simp only [wSign, hmk, hG, hA, hK, eA, eK, R.ok_bind, scalar_mul_new hr1, hsum, hbs]
    rfl
  · have := Int.emod_lt_of_pos (k + H (nonce ++ pk ++ msg) * a) (show (0 : ℤ) < e.r by omega)
    omega
  · obtain ⟨s, S, hs, hS, dS⟩ := w_mul p e h prof hg hgk (beValue sb') (h0.imp (·.1) id)
    obtain ⟨t, T, ht, hT, dT⟩ := w_mul p e h prof dA' (hkill a) (H (nonce ++ pk ++ msg')) (h0.imp (·.2) id)
    obtain ⟨U, hU, dU⟩ := (C23_group_law p e h.curve h.complete K' T _ _ dK' dT).1
    rw [beValue_eq] at hs
    simp only [wVerify, unwrap_ok hA', unwrap_ok hK', R.ok_bind, hs, ht, hG, hS, hT, hU, w_eq p e dS dU, R.ok.injEq]
    refine decide_eq_decide.2 ?_
    rw [← mul_zsmul, ← add_zsmul, ← sub_eq_zero, sub_eq_add_neg, ← sub_zsmul, zsmul_eq_iff ho, hval]
    exact dvd_iff_of_mod ..

/-- C112, Weierstrass: every signature verifies; the response is the only one below the order; and a response in which zero bytes are put in front (of the most
significant byte) is accepted as well. -/
theorem _root_.Redox.Props.C112_weierstrass_accepts (e : Weierstrass.Curve) (h : WValid p e) (hs : p % 4 = 3 ∨ p % 8 = 5) (prof : Profile) (H : List Byte → ℤ)
    (c : Bool) (a k : ℤ) (ha : ¬ (e.getOrder : ℤ) ∣ a) (hk : ¬ (e.getOrder : ℤ) ∣ k) (msg pk nonce sb : List Byte)
    (hsig : wSign prof e H c a k msg = R.ok (pk, nonce, sb))
    (h0 : (¬ (e.getOrder : ℤ) ∣ beValue sb ∧ ¬ (e.getOrder : ℤ) ∣ H (nonce ++ pk ++ msg)) ∨ prof = .release) :
    wVerify prof e H msg pk nonce sb = R.ok true ∧
    (∀ sb', beValue sb' < e.getOrder → sb'.length = sb.length → (¬ (e.getOrder : ℤ) ∣ beValue sb' ∨ prof = .release) →
      wVerify prof e H msg pk nonce sb' = R.ok true → sb' = sb) ∧
    wVerify prof e H msg pk nonce (0 :: sb) = R.ok true := by
  obtain ⟨pk', nonce', sb₀, h1, hlen, hlt, hv⟩ := C112_weierstrass p e h hs prof H c a k ha hk msg
  rw [hsig, R.ok.injEq, Prod.mk.injEq, Prod.mk.injEq] at h1
  obtain ⟨rfl, rfl, rfl⟩ := h1
  refine ⟨?_, fun sb' hlt' hl hnz hok => ?_, ?_⟩
  · rw [hv msg sb h0]; simp
  · rw [hv msg sb' (by tauto), R.ok.injEq, decide_eq_true_eq, sub_self, zero_mul, sub_zero] at hok
    refine beValue_inj sb' sb hl ?_
    have := Int.eq_zero_of_abs_lt_dvd hok (by rw [abs_lt]; omega)
    omega
  · rw [hv msg (0 :: sb) (by rwa [beValue_cons]), beValue_cons]; simp

/-- Signing a message with the secret `a` and the nonce `k` on a Montgomery curve: the encoded key, the encoded nonce point, the response in big-endian order. -/
def mSign (prof : Profile) (e : Montgomery.Curve) (H : List Byte → ℤ) (c : Bool) (a k : ℤ) (msg : List Byte) : R (List Byte × List Byte × List Byte) := do
  let sa ← e.newScalar a
  let sk ← e.newScalar k
  let pk ← (← (← e.getGenerator).mul prof sa).encode c
  let nonce ← (← (← e.getGenerator).mul prof sk).encode c
  let s ← sk.add (← (← e.newScalar (H (nonce ++ pk ++ msg))).mul sa)
  let sb ← s.toBytesBE
  return (pk, nonce, sb)

/-- Verification of a signature. -/
def mVerify (prof : Profile) (e : Montgomery.Curve) (H : List Byte → ℤ) (msg pk nonce sb : List Byte) : R Bool := do
  let A ← unwrap (e.decode pk)
  let K ← unwrap (e.decode nonce)
  let s ← e.newScalar (Big.fromBytesBE sb)
  let h ← e.newScalar (H (nonce ++ pk ++ msg))
  (← (← e.getGenerator).mul prof s).eq (← K.add (← A.mul prof h))

/-- C112, Montgomery: signing returns; its key and nonce point, verified with any message and any response, give a verdict, which is true exactly if the
difference of the responses is the secret times the difference of the challenges, modulo the order. -/
theorem _root_.Redox.Props.C112_montgomery (e : Montgomery.Curve) (h : MValid p e) (hs : p % 4 = 3 ∨ p % 8 = 5) (prof : Profile) (H : List Byte → ℤ)
    (c : Bool) (a k : ℤ) (ha : ¬ (e.getOrder : ℤ) ∣ a) (hk : ¬ (e.getOrder : ℤ) ∣ k) (msg : List Byte) :
    ∃ pk nonce sb, mSign prof e H c a k msg = R.ok (pk, nonce, sb) ∧ sb.length = (Big.bits e.getOrder + 7) / 8 ∧ beValue sb < e.getOrder ∧
      ∀ msg' sb', ((¬ (e.getOrder : ℤ) ∣ beValue sb' ∧ ¬ (e.getOrder : ℤ) ∣ H (nonce ++ pk ++ msg')) ∨ prof = .release) →
        mVerify prof e H msg' pk nonce sb' =
          R.ok (decide ((e.getOrder : ℤ) ∣ ((beValue sb' : ℤ) - beValue sb) - (H (nonce ++ pk ++ msg') - H (nonce ++ pk ++ msg)) * a)) := by
  have hr1 : 1 ≤ e.r := h.order_prime.one_le
  simp only [Montgomery.Curve.getOrder] at ha hk ⊢
  obtain ⟨G, g, hG, hg, -⟩ := h.generator
  obtain ⟨ho, hgk⟩ := m_gen p e h hG hg
  have hkill : ∀ k : ℤ, e.r • (k • g) = 0 := fun k => by rw [smul_comm, hgk, zsmul_zero]
  have round : ∀ P B, MDenotes p e P B → B ≠ 0 → ∀ c, ∃ bs Q, P.encode c = R.ok bs ∧ e.decode bs = R.ok (.ok Q) ∧ MDenotes p e Q B := by
    intro P B hP hB c
    obtain ⟨bs, Q, h1, -, h3, h4, -⟩ := C34_roundtrip_partial p e h.curve h.b_one hs P B hP hB c
    exact ⟨bs, Q, h1, h3, h4⟩
  obtain ⟨sa, A, hsa, hA, dA⟩ := m_mul p e h prof hg hgk a (Or.inl ha)
  obtain ⟨sk, K, hsk, hK, dK⟩ := m_mul p e h prof hg hgk k (Or.inl hk)
  obtain ⟨pk, A', eA, hA', dA'⟩ := round A _ dA (smul_ne ho ha) c
  obtain ⟨nonce, K', eK, hK', dK'⟩ := round K _ dK (smul_ne ho hk) c
  have hmk : ∀ a, e.newScalar a = R.ok ⟨a % e.r, e.r⟩ := scalar_new_eq e.r hr1
  have hsum : Scalar.add ⟨k % e.r, e.r⟩ ⟨H (nonce ++ pk ++ msg) * a % e.r, e.r⟩ = R.ok ⟨(k + H (nonce ++ pk ++ msg) * a) % e.r, e.r⟩ := scalar_add_new hr1 _ _
  obtain ⟨bs, hbs, hbs', hlen, hv, -⟩ := C21_serialize e.r hr1 ⟨(k + H (nonce ++ pk ++ msg) * a) % e.r, e.r⟩
    ⟨rfl, Int.emod_nonneg _ (by omega), Int.emod_lt_of_pos _ (by omega)⟩
  have hval : (beValue bs : ℤ) = (k + H (nonce ++ pk ++ msg) * a) % e.r := by
    exact hv
  refine ⟨pk, nonce, bs, ?_, by simpa using hlen, ?_, fun msg' sb' h0 => ?_⟩
  · rw [hmk, R.ok.injEq] at hsa hsk
    subst hsa hsk
    simp only [mSign, hmk, hG, hA, hK, eA, eK, R.ok_bind, scalar_mul_new hr1, hsum, hbs]
    rfl
  · have := Int.emod_lt_of_pos (k + H (nonce ++ pk ++ msg) * a) (show (0 : ℤ) < e.r by omega)
    omega
  · obtain ⟨s, S, hs, hS, dS⟩ := m_mul p e h prof hg hgk (beValue sb') (h0.imp (·.1) id)
    obtain ⟨t, T, ht, hT, dT⟩ := m_mul p e h prof dA' (hkill a) (H (nonce ++ pk ++ msg')) (h0.imp (·.2) id)
    obtain ⟨U, hU, dU⟩ := (C32_group_law_partial p e h.curve h.b_one h.complete K' T _ _ dK' dT).1
    rw [beValue_eq] at hs
    simp only [mVerify, unwrap_ok hA', unwrap_ok hK', R.ok_bind, hs, ht, hG, hS, hT, hU, m_eq p e dS dU, R.ok.injEq]
    refine decide_eq_decide.2 ?_
    rw [← mul_zsmul, ← add_zsmul, ← sub_eq_zero, sub_eq_add_neg, ← sub_zsmul, zsmul_eq_iff ho, hval]
    exact dvd_iff_of_mod ..

/-- C112, Montgomery: every signature verifies; the response is the only one below the order; and a response in which zero bytes are put in front (of the most
significant byte) is accepted as well. -/
theorem _root_.Redox.Props.C112_montgomery_accepts (e : Montgomery.Curve) (h : MValid p e) (hs : p % 4 = 3 ∨ p % 8 = 5) (prof : Profile) (H : List Byte → ℤ)
    (c : Bool) (a k : ℤ) (ha : ¬ (e.getOrder : ℤ) ∣ a) (hk : ¬ (e.getOrder : ℤ) ∣ k) (msg pk nonce sb : List Byte)
    (hsig : mSign prof e H c a k msg = R.ok (pk, nonce, sb))
    (h0 : (¬ (e.getOrder : ℤ) ∣ beValue sb ∧ ¬ (e.getOrder : ℤ) ∣ H (nonce ++ pk ++ msg)) ∨ prof = .release) :
    mVerify prof e H msg pk nonce sb = R.ok true ∧
    (∀ sb', beValue sb' < e.getOrder → sb'.length = sb.length → (¬ (e.getOrder : ℤ) ∣ beValue sb' ∨ prof = .release) →
      mVerify prof e H msg pk nonce sb' = R.ok true → sb' = sb) ∧
    mVerify prof e H msg pk nonce (0 :: sb) = R.ok true := by
  obtain ⟨pk', nonce', sb₀, h1, hlen, hlt, hv⟩ := C112_montgomery p e h hs prof H c a k ha hk msg
  rw [hsig, R.ok.injEq, Prod.mk.injEq, Prod.mk.injEq] at h1
  obtain ⟨rfl, rfl, rfl⟩ := h1
  refine ⟨?_, fun sb' hlt' hl hnz hok => ?_, ?_⟩
  · rw [hv msg sb h0]; simp
  · rw [hv msg sb' (by tauto), R.ok.injEq, decide_eq_true_eq, sub_self, zero_mul, sub_zero] at hok
    refine beValue_inj sb' sb hl ?_
    have := Int.eq_zero_of_abs_lt_dvd hok (by rw [abs_lt]; omega)
    omega
  · rw [hv msg (0 :: sb) (by rwa [beValue_cons]), beValue_cons]; simp

/-- Signing a message with the secret `a` and the nonce `k` on an Edwards curve: the encoded key, the encoded nonce point, the response in little-endian order. -/
def eSign (prof : Profile) (e : Edwards.Curve) (H : List Byte → ℤ) (c : Bool) (a k : ℤ) (msg : List Byte) : R (List Byte × List Byte × List Byte) := do
  let sa ← e.newScalar a
  let sk ← e.newScalar k
  let pk ← (← (← e.getGenerator).mul prof sa).encode c
  let nonce ← (← (← e.getGenerator).mul prof sk).encode c
  let s ← sk.add (← (← e.newScalar (H (nonce ++ pk ++ msg))).mul sa)
  let sb ← s.toBytesLE
  return (pk, nonce, sb)

/-- Verification of a signature. -/
def eVerify (prof : Profile) (e : Edwards.Curve) (H : List Byte → ℤ) (msg pk nonce sb : List Byte) : R Bool := do
  let A ← unwrap (e.decode pk)
  let K ← unwrap (e.decode nonce)
  let s ← e.newScalar (Big.fromBytesLE sb)
  let h ← e.newScalar (H (nonce ++ pk ++ msg))
  (← (← e.getGenerator).mul prof s).eq (← K.add (← A.mul prof h))

/-- C112, Edwards: signing returns; its key and nonce point, verified with any message and any response, give a verdict, which is true exactly if the
difference of the responses is the secret times the difference of the challenges, modulo the order. -/
theorem _root_.Redox.Props.C112_edwards (e : Edwards.Curve) (h : EValid p e) [ECurve p e] (hs : p % 4 = 3 ∨ p % 8 = 5) (prof : Profile) (H : List Byte → ℤ)
    (c : Bool) (a k : ℤ) (ha : ¬ (e.getOrder : ℤ) ∣ a) (hk : ¬ (e.getOrder : ℤ) ∣ k) (msg : List Byte) :
    ∃ pk nonce sb, eSign prof e H c a k msg = R.ok (pk, nonce, sb) ∧ sb.length = (Big.bits e.getOrder + 7) / 8 ∧ leValue sb < e.getOrder ∧
      ∀ msg' sb', ((¬ (e.getOrder : ℤ) ∣ leValue sb' ∧ ¬ (e.getOrder : ℤ) ∣ H (nonce ++ pk ++ msg')) ∨ prof = .release) →
        eVerify prof e H msg' pk nonce sb' =
          R.ok (decide ((e.getOrder : ℤ) ∣ ((leValue sb' : ℤ) - leValue sb) - (H (nonce ++ pk ++ msg') - H (nonce ++ pk ++ msg)) * a)) := by
  have hr1 : 1 ≤ e.r := h.order_prime.one_le
  simp only [Edwards.Curve.getOrder] at ha hk ⊢
  obtain ⟨G, g, hG, hg, -⟩ := h.generator
  obtain ⟨ho, hgk⟩ := e_gen p e h hG hg
  have hkill : ∀ k : ℤ, e.r • (k • g) = 0 := fun k => by rw [smul_comm, hgk, zsmul_zero]
  have round : ∀ P B, EDenotes p e P B → B ≠ 0 → ∀ c, ∃ bs Q, P.encode c = R.ok bs ∧ e.decode bs = R.ok (.ok Q) ∧ EDenotes p e Q B := by
    intro P B hP hB c
    obtain ⟨bs, Q, h1, -, -, h3, h4, -⟩ := C39_roundtrip p e hs P B hP c
    exact ⟨bs, Q, h1, h3, h4⟩
  obtain ⟨sa, A, hsa, hA, dA⟩ := e_mul p e h prof hg hgk a (Or.inl ha)
  obtain ⟨sk, K, hsk, hK, dK⟩ := e_mul p e h prof hg hgk k (Or.inl hk)
  obtain ⟨pk, A', eA, hA', dA'⟩ := round A _ dA (smul_ne ho ha) c
  obtain ⟨nonce, K', eK, hK', dK'⟩ := round K _ dK (smul_ne ho hk) c
  have hmk : ∀ a, e.newScalar a = R.ok ⟨a % e.r, e.r⟩ := scalar_new_eq e.r hr1
  have hsum : Scalar.add ⟨k % e.r, e.r⟩ ⟨H (nonce ++ pk ++ msg) * a % e.r, e.r⟩ = R.ok ⟨(k + H (nonce ++ pk ++ msg) * a) % e.r, e.r⟩ := scalar_add_new hr1 _ _
  obtain ⟨bs, hbs, hbs', hlen, hv, -⟩ := C21_serialize e.r hr1 ⟨(k + H (nonce ++ pk ++ msg) * a) % e.r, e.r⟩
    ⟨rfl, Int.emod_nonneg _ (by omega), Int.emod_lt_of_pos _ (by omega)⟩
  have hval : (leValue bs.reverse : ℤ) = (k + H (nonce ++ pk ++ msg) * a) % e.r := by
    rwa [leValue, List.reverse_reverse]
  refine ⟨pk, nonce, bs.reverse, ?_, by simpa using hlen, ?_, fun msg' sb' h0 => ?_⟩
  · rw [hmk, R.ok.injEq] at hsa hsk
    subst hsa hsk
    simp only [eSign, hmk, hG, hA, hK, eA, eK, R.ok_bind, scalar_mul_new hr1, hsum, hbs']
    rfl
  · have := Int.emod_lt_of_pos (k + H (nonce ++ pk ++ msg) * a) (show (0 : ℤ) < e.r by omega)
    omega
  · obtain ⟨s, S, hs, hS, dS⟩ := e_mul p e h prof hg hgk (leValue sb') (h0.imp (·.1) id)
    obtain ⟨t, T, ht, hT, dT⟩ := e_mul p e h prof dA' (hkill a) (H (nonce ++ pk ++ msg')) (h0.imp (·.2) id)
    obtain ⟨U, hU, dU⟩ := (C36_group_law p e K' T _ _ dK' dT).1
    rw [leValue_eq] at hs
    simp only [eVerify, unwrap_ok hA', unwrap_ok hK', R.ok_bind, hs, ht, hG, hS, hT, hU, e_eq p e dS dU, R.ok.injEq]
    refine decide_eq_decide.2 ?_
    rw [← mul_zsmul, ← add_zsmul, ← sub_eq_zero, sub_eq_add_neg, ← sub_zsmul, zsmul_eq_iff ho, hval]
    exact dvd_iff_of_mod ..

/-- C112, Edwards: every signature verifies; the response is the only one below the order; and a response in which zero bytes are put in front (of the most
significant byte) is accepted as well. -/
theorem _root_.Redox.Props.C112_edwards_accepts (e : Edwards.Curve) (h : EValid p e) [ECurve p e] (hs : p % 4 = 3 ∨ p % 8 = 5) (prof : Profile) (H : List Byte → ℤ)
    (c : Bool) (a k : ℤ) (ha : ¬ (e.getOrder : ℤ) ∣ a) (hk : ¬ (e.getOrder : ℤ) ∣ k) (msg pk nonce sb : List Byte)
    (hsig : eSign prof e H c a k msg = R.ok (pk, nonce, sb))
    (h0 : (¬ (e.getOrder : ℤ) ∣ leValue sb ∧ ¬ (e.getOrder : ℤ) ∣ H (nonce ++ pk ++ msg)) ∨ prof = .release) :
    eVerify prof e H msg pk nonce sb = R.ok true ∧
    (∀ sb', leValue sb' < e.getOrder → sb'.length = sb.length → (¬ (e.getOrder : ℤ) ∣ leValue sb' ∨ prof = .release) →
      eVerify prof e H msg pk nonce sb' = R.ok true → sb' = sb) ∧
    eVerify prof e H msg pk nonce (sb ++ [0]) = R.ok true := by
  obtain ⟨pk', nonce', sb₀, h1, hlen, hlt, hv⟩ := C112_edwards p e h hs prof H c a k ha hk msg
  rw [hsig, R.ok.injEq, Prod.mk.injEq, Prod.mk.injEq] at h1
  obtain ⟨rfl, rfl, rfl⟩ := h1
  refine ⟨?_, fun sb' hlt' hl hnz hok => ?_, ?_⟩
  · rw [hv msg sb h0]; simp
  · rw [hv msg sb' (by tauto), R.ok.injEq, decide_eq_true_eq, sub_self, zero_mul, sub_zero] at hok
    refine leValue_inj sb' sb hl ?_
    have := Int.eq_zero_of_abs_lt_dvd hok (by rw [abs_lt]; omega)
    omega
  · rw [hv msg (sb ++ [0]) (by rwa [leValue_snoc]), leValue_snoc]; simp

end

end Redox.Props.Sign
