import Verif.Props.NamedMaps

/-!
# C77 and C78: what protocols rely on

Key agreement over encoded points and the verification equation of Schnorr signatures, on curves with valid parameters.
-/

namespace Redox.Props.Flow

open Spec Redox.Inst

/-- `Result::unwrap`. -/
def unwrap {ε α : Type} (x : R (Except ε α)) : R α := x.bind fun
  | .ok a => R.ok a
  | .error _ => R.panic .unwrapNone

theorem smul_ne {G : Type*} [AddCommGroup G] {A : G} {r : ℕ} (h : addOrderOf A = r) {k : ℤ} (hk : ¬ (r : ℤ) ∣ k) : k • A ≠ 0 := by
  rwa [ne_eq, ← addOrderOf_dvd_iff_zsmul_eq_zero, h]

theorem not_dvd_mul {r : ℕ} (hr : r.Prime) {a b : ℤ} (ha : ¬ (r : ℤ) ∣ a) (hb : ¬ (r : ℤ) ∣ b) : ¬ (r : ℤ) ∣ a * b := fun h =>
  (Int.Prime.dvd_mul' hr h).elim ha hb

theorem scalar_mul_new {r : ℕ} (hr : 1 ≤ r) (a b : ℤ) : Scalar.mul ⟨a % r, r⟩ ⟨b % r, r⟩ = R.ok ⟨a * b % r, r⟩ := by
  have : ((r : ℤ) == r) = true := beq_self_eq_true _
  simp only [Scalar.mul, this, doIfEq_true, scalar_red_eq r hr]
  rw [← Int.mul_emod]

theorem scalar_add_new {r : ℕ} (hr : 1 ≤ r) (a b : ℤ) : Scalar.add ⟨a % r, r⟩ ⟨b % r, r⟩ = R.ok ⟨(a + b) % r, r⟩ := by
  have : ((r : ℤ) == r) = true := beq_self_eq_true _
  simp only [Scalar.add, this, doIfEq_true, scalar_red_eq r hr]
  rw [← Int.add_emod]

theorem scalar_div_new {r : ℕ} (hr : r.Prime) (h2 : r ≠ 2) (a b : ℤ) (hb : ¬ (r : ℤ) ∣ b) :
    ∃ c : ℤ, Scalar.div ⟨a % r, r⟩ ⟨b % r, r⟩ = R.ok ⟨c % r, r⟩ ∧ (r : ℤ) ∣ c * b - a := by
  have h1 := hr.one_le
  have hpos : (0 : ℤ) < r := by exact_mod_cast hr.pos
  have hc : ∀ z : ℤ, CanonScalar r ⟨z % r, r⟩ := fun z => ⟨rfl, Int.emod_nonneg _ hpos.ne', Int.emod_lt_of_pos _ hpos⟩
  obtain ⟨⟨qk, qr⟩, hq, ⟨hqr, hq0, hq1⟩, hm⟩ := (C19_div r hr h2 _ _ (hc a) (hc b)).1 fun h => hb (Int.dvd_of_emod_eq_zero h)
  simp only at hqr hq0 hq1
  subst hqr
  have hqm : qk % r = qk := Int.emod_eq_of_lt hq0 hq1
  refine ⟨qk, by rw [hq, hqm], ?_⟩
  rw [← hqm, scalar_mul_new h1, R.ok.injEq, Scalar.mk.injEq] at hm
  exact Int.ModEq.dvd hm.1.symm

section
variable (p : ℕ) [Fact p.Prime]

/-- Key agreement on a Weierstrass curve: both parties multiply the generator by their secret, send the encoding (`c`: compressed), decode
what they receive, multiply by their secret and encode the result (`c'`: compressed). -/
def wAgree (prof : Profile) (e : Weierstrass.Curve) (a b : ℤ) (c c' : Bool) : R (List Byte × List Byte) := do
  let g ← e.getGenerator
  let sa ← e.newScalar a
  let sb ← e.newScalar b
  let wa ← (← g.mul prof sa).encode c
  let wb ← (← g.mul prof sb).encode c
  let ka ← (← (← unwrap (e.decode wb)).mul prof sa).encode c'
  let kb ← (← (← unwrap (e.decode wa)).mul prof sb).encode c'
  return (ka, kb)

/-- C77, Weierstrass: key agreement. For all secrets `a` and `b` that are not multiples of the order, nothing panics, both parties
compute the same bytes, and these are the encoding of `G * (a b)`. -/
theorem _root_.Redox.Props.C77_weierstrass (e : Weierstrass.Curve) (h : WValid p e) (hs : p % 4 = 3 ∨ p % 8 = 5)
    (prof : Profile) (a b : ℤ) (ha : ¬ (e.getOrder : ℤ) ∣ a) (hb : ¬ (e.getOrder : ℤ) ∣ b) (c c' : Bool) :
    ∃ k, wAgree prof e a b c c' = R.ok (k, k) ∧
      (do let sa ← e.newScalar a
          let sb ← e.newScalar b
          (← (← e.getGenerator).mul prof (← sa.mul sb)).encode c') = R.ok k := by
  obtain ⟨G, A, hG, hd, hA⟩ := h.generator
  simp only [Weierstrass.Curve.getOrder] at ha hb hA
  have hr1 : 1 ≤ e.r := h.order_prime.one_le
  have hkill : ∀ k : ℤ, e.r • (k • A) = 0 := fun k => by rw [smul_comm, ← hA, addOrderOf_nsmul_eq_zero, smul_zero]
  have hab := not_dvd_mul h.order_prime ha hb
  simp only [Weierstrass.Curve.getOrder] at hab
  have key : ∀ P B k, WDenotes p e P B → e.r • B = 0 → ¬ (e.r : ℤ) ∣ k →
      ∃ S, P.mul prof ⟨k % e.r, e.r⟩ = R.ok S ∧ WDenotes p e S (k • B) := by
    intro P B k hP hB hk
    have := C26_integer p e h.curve h.complete h.order_bits hr1 prof P B hP hB k (Or.inl hk)
    rwa [Weierstrass.Curve.newScalar, scalar_new_eq e.r hr1, R.ok_bind] at this
  have hA0 : e.r • A = 0 := by have := hkill 1; rwa [one_smul] at this
  obtain ⟨SA, eA, dA⟩ := key G A a hd hA0 ha
  obtain ⟨SB, eB, dB⟩ := key G A b hd hA0 hb
  obtain ⟨SC, eC, dC⟩ := key G A (a * b) hd hA0 hab
  have round : ∀ P B, WDenotes p e P B → B ≠ 0 → ∀ c, ∃ bs Q, P.encode c = R.ok bs ∧ e.decode bs = R.ok (.ok Q) ∧ WDenotes p e Q B := by
    intro P B hP hB c
    obtain ⟨bs, Q, h1, -, h3, h4, -⟩ := C28_roundtrip_partial p e h.curve hs P B hP hB c
    exact ⟨bs, Q, h1, h3, h4⟩
  obtain ⟨wa, QA, e1, e2, d2⟩ := round SA _ dA (smul_ne hA ha) c
  obtain ⟨wb, QB, e3, e4, d4⟩ := round SB _ dB (smul_ne hA hb) c
  obtain ⟨TA, eTA, dTA⟩ := key QB _ a d4 (hkill b) ha
  obtain ⟨TB, eTB, dTB⟩ := key QA _ b d2 (hkill a) hb
  rw [smul_smul] at dTA dTB
  rw [mul_comm] at dTB
  obtain ⟨k, -, hk, -, -⟩ := round SC _ dC (smul_ne hA hab) c'
  have same : ∀ T, WDenotes p e T ((a * b) • A) → T.encode c' = R.ok k := fun T hT => by
    rw [← hk]
    exact (C30_encode p e h.curve c' T SC _ _ hT dC).1 rfl
  refine ⟨k, ?_, ?_⟩
  · simp only [wAgree, unwrap, Weierstrass.Curve.newScalar, scalar_new_eq e.r hr1, hG, R.ok_bind, eA, eB, e1, e3, e2, e4, R.bind, eTA, eTB,
      same TA dTA, same TB dTB, R.pure_eq]
  · simp only [Weierstrass.Curve.newScalar, scalar_new_eq e.r hr1, hG, R.ok_bind, scalar_mul_new hr1, eC, hk]

/-- C78, Weierstrass: the verification equation of Schnorr signatures. For a secret `x`, a nonce `k` and a challenge `m`, the check
`G * s == G * k + (G * x) * m` accepts exactly the response `s ≡ k + m x` modulo the order, and the response computed with the
scalar operations is accepted. In debug builds no scalar may be zero (C25). -/
theorem _root_.Redox.Props.C78_weierstrass_partial (e : Weierstrass.Curve) (h : WValid p e) (prof : Profile) (x k m s : ℤ)
    (h0 : (∀ n ∈ [x, k, m, s, k + m * x], ¬ (e.getOrder : ℤ) ∣ n) ∨ prof = .release) :
    (do let g ← e.getGenerator
        let X ← g.mul prof (← e.newScalar x)
        let K ← g.mul prof (← e.newScalar k)
        (← g.mul prof (← e.newScalar s)).eq (← K.add (← X.mul prof (← e.newScalar m)))) =
      R.ok (decide ((e.getOrder : ℤ) ∣ s - (k + m * x))) ∧
    (do let g ← e.getGenerator
        let sx ← e.newScalar x
        let sk ← e.newScalar k
        let sm ← e.newScalar m
        let X ← g.mul prof sx
        let K ← g.mul prof sk
        let t ← sk.add (← sm.mul sx)
        (← g.mul prof t).eq (← K.add (← X.mul prof sm))) = R.ok true := by
  obtain ⟨G, A, hG, hd, hA⟩ := h.generator
  simp only [Weierstrass.Curve.getOrder] at h0 hA ⊢
  have hr1 : 1 ≤ e.r := h.order_prime.one_le
  have hkill : ∀ k : ℤ, e.r • (k • A) = 0 := fun k => by rw [smul_comm, ← hA, addOrderOf_nsmul_eq_zero, smul_zero]
  have key : ∀ P B k, WDenotes p e P B → e.r • B = 0 → (¬ (e.r : ℤ) ∣ k ∨ prof = .release) →
      ∃ S, P.mul prof ⟨k % e.r, e.r⟩ = R.ok S ∧ WDenotes p e S (k • B) := by
    intro P B k hP hB hk
    have := C26_integer p e h.curve h.complete h.order_bits hr1 prof P B hP hB k hk
    rwa [Weierstrass.Curve.newScalar, scalar_new_eq e.r hr1, R.ok_bind] at this
  have hA0 : e.r • A = 0 := by have := hkill 1; rwa [one_smul] at this
  have hn : ∀ n ∈ [x, k, m, s, k + m * x], ¬ (e.r : ℤ) ∣ n ∨ prof = .release := fun n hn => h0.imp (fun h => h n hn) id
  obtain ⟨X, eX, dX⟩ := key G A x hd hA0 (hn _ (by simp))
  obtain ⟨K, eK, dK⟩ := key G A k hd hA0 (hn _ (by simp))
  obtain ⟨S, eS, dS⟩ := key G A s hd hA0 (hn _ (by simp))
  obtain ⟨T, eT, dT⟩ := key G A (k + m * x) hd hA0 (hn _ (by simp))
  obtain ⟨M, eM, dM⟩ := key X _ m dX (hkill x) (hn _ (by simp))
  obtain ⟨V, eV, dV⟩ := (C23_group_law p e h.curve h.complete K M _ _ dK dM).1
  rw [smul_smul, ← add_zsmul] at dV
  constructor
  · simp only [hG, Weierstrass.Curve.newScalar, scalar_new_eq e.r hr1, R.ok_bind, eX, eK, eS, eM, eV,
      C27_eq p e _ _ _ _ dS dV, Inst.smul_eq_iff hA]
    rfl
  · simp only [hG, Weierstrass.Curve.newScalar, scalar_new_eq e.r hr1, R.ok_bind, eX, eK, scalar_mul_new hr1, scalar_add_new hr1, eT, eM, eV,
      C27_eq p e _ _ _ _ dT dV, decide_eq_true]

/-- C79, Weierstrass: the verification equation of ECDSA. For a secret `x`, a nonce `k`, a message representative `z` and the integer `t` made
from the nonce point, with `s = (z + t x) / k`, the point `G * (z / s) + (G * x) * (t / s)` equals `G * k`. The nonce and `s` are not
zero modulo the order; in debug builds no other scalar may be zero either (C25). -/
theorem _root_.Redox.Props.C79_weierstrass_partial (e : Weierstrass.Curve) (h : WValid p e) (hr2 : e.getOrder ≠ 2) (prof : Profile)
    (x k z t : ℤ) (hk : ¬ (e.getOrder : ℤ) ∣ k) (hs : ¬ (e.getOrder : ℤ) ∣ z + t * x)
    (h0 : (∀ n ∈ [x, z, t], ¬ (e.getOrder : ℤ) ∣ n) ∨ prof = .release) :
    (do let g ← e.getGenerator
        let sx ← e.newScalar x
        let sk ← e.newScalar k
        let sz ← e.newScalar z
        let st ← e.newScalar t
        let X ← g.mul prof sx
        let K ← g.mul prof sk
        let s ← (← sz.add (← st.mul sx)).div sk
        let V ← (← g.mul prof (← sz.div s)).add (← X.mul prof (← st.div s))
        V.eq K) = R.ok true := by
  obtain ⟨G, A, hG, hd, hA⟩ := h.generator
  have hrp := h.order_prime
  simp only [Weierstrass.Curve.getOrder] at h0 hA hk hs hr2 hrp
  have hr1 : 1 ≤ e.r := hrp.one_le
  have hkill : ∀ k : ℤ, e.r • (k • A) = 0 := fun k => by rw [smul_comm, ← hA, addOrderOf_nsmul_eq_zero, smul_zero]
  have key : ∀ P B k, WDenotes p e P B → e.r • B = 0 → (¬ (e.r : ℤ) ∣ k ∨ prof = .release) →
      ∃ S, P.mul prof ⟨k % e.r, e.r⟩ = R.ok S ∧ WDenotes p e S (k • B) := by
    intro P B k hP hB hk
    have := C26_integer p e h.curve h.complete h.order_bits hr1 prof P B hP hB k hk
    rwa [Weierstrass.Curve.newScalar, scalar_new_eq e.r hr1, R.ok_bind] at this
  have hA0 : e.r • A = 0 := by have := hkill 1; rwa [one_smul] at this
  have hn : ∀ n ∈ [x, z, t], ¬ (e.r : ℤ) ∣ n ∨ prof = .release := fun n hn => h0.imp (fun h => h n hn) id
  obtain ⟨s, es, hsk⟩ := scalar_div_new hrp hr2 (z + t * x) k hk
  have hs0 : ¬ (e.r : ℤ) ∣ s := fun hd => hs ((Int.dvd_iff_dvd_of_dvd_sub hsk).1 (Dvd.dvd.mul_right hd k))
  obtain ⟨u, eu, hu⟩ := scalar_div_new hrp hr2 z s hs0
  obtain ⟨v, ev, hv⟩ := scalar_div_new hrp hr2 t s hs0
  have nz : ∀ a b, (e.r : ℤ) ∣ b * s - a → ¬ (e.r : ℤ) ∣ a ∨ prof = .release → ¬ (e.r : ℤ) ∣ b ∨ prof = .release :=
    fun a b hab => Or.imp (fun ha hb => ha ((Int.dvd_iff_dvd_of_dvd_sub hab).1 (Dvd.dvd.mul_right hb s))) id
  obtain ⟨X, eX, dX⟩ := key G A x hd hA0 (hn _ (by simp))
  obtain ⟨K, eK, dK⟩ := key G A k hd hA0 (Or.inl hk)
  obtain ⟨U, eU, dU⟩ := key G A u hd hA0 (nz z u hu (hn _ (by simp)))
  obtain ⟨M, eM, dM⟩ := key X _ v dX (hkill x) (nz t v hv (hn _ (by simp)))
  obtain ⟨V, eV, dV⟩ := (C23_group_law p e h.curve h.complete U M _ _ dU dM).1
  rw [smul_smul, ← add_zsmul] at dV
  have hfin : (u + v * x) • A = k • A := by
    rw [Inst.smul_eq_iff hA]
    have h1 : (e.r : ℤ) ∣ (u + v * x - k) * s := by
      have := (hu.add (hv.mul_right x)).sub hsk
      refine (Int.dvd_iff_dvd_of_dvd_sub ?_).1 this
      exact ⟨0, by ring⟩
    exact (Int.Prime.dvd_mul' hrp h1).resolve_right hs0
  simp only [hG, Weierstrass.Curve.newScalar, scalar_new_eq e.r hr1, R.ok_bind, eX, eK, scalar_mul_new hr1, scalar_add_new hr1, es, eu, ev, eU, eM, eV,
    C27_eq p e _ _ _ _ dV dK, hfin, decide_eq_true]

/-- C79, Weierstrass, every claimed `s`: for a secret `x`, a nonce `k`, a message representative `z`, the integer `t` made from the nonce point and any
`s` that is not zero modulo the order, `G * (z / s) + (G * x) * (t / s) == G * k` exactly if `s k ≡ z + t x` modulo the order. -/
theorem _root_.Redox.Props.C79_weierstrass_accepts_partial (e : Weierstrass.Curve) (h : WValid p e) (hr2 : e.getOrder ≠ 2) (prof : Profile)
    (x k z t s : ℤ) (hs0 : ¬ (e.getOrder : ℤ) ∣ s) (h0 : (∀ n ∈ [x, k, z, t], ¬ (e.getOrder : ℤ) ∣ n) ∨ prof = .release) :
    (do let g ← e.getGenerator
        let X ← g.mul prof (← e.newScalar x)
        let K ← g.mul prof (← e.newScalar k)
        let ss ← e.newScalar s
        let V ← (← g.mul prof (← (← e.newScalar z).div ss)).add (← X.mul prof (← (← e.newScalar t).div ss))
        V.eq K) = R.ok (decide ((e.getOrder : ℤ) ∣ s * k - (z + t * x))) := by
  obtain ⟨G, A, hG, hd, hA⟩ := h.generator
  have hrp := h.order_prime
  simp only [Weierstrass.Curve.getOrder] at h0 hA hs0 hr2 hrp ⊢
  have hr1 : 1 ≤ e.r := hrp.one_le
  have hkill : ∀ k : ℤ, e.r • (k • A) = 0 := fun k => by rw [smul_comm, ← hA, addOrderOf_nsmul_eq_zero, smul_zero]
  have key : ∀ P B k, WDenotes p e P B → e.r • B = 0 → (¬ (e.r : ℤ) ∣ k ∨ prof = .release) →
      ∃ S, P.mul prof ⟨k % e.r, e.r⟩ = R.ok S ∧ WDenotes p e S (k • B) := by
    intro P B k hP hB hk
    have := C26_integer p e h.curve h.complete h.order_bits hr1 prof P B hP hB k hk
    rwa [Weierstrass.Curve.newScalar, scalar_new_eq e.r hr1, R.ok_bind] at this
  have hA0 : e.r • A = 0 := by have := hkill 1; rwa [one_smul] at this
  have hn : ∀ n ∈ [x, k, z, t], ¬ (e.r : ℤ) ∣ n ∨ prof = .release := fun n hn => h0.imp (fun h => h n hn) id
  obtain ⟨u, eu, hu⟩ := scalar_div_new hrp hr2 z s hs0
  obtain ⟨v, ev, hv⟩ := scalar_div_new hrp hr2 t s hs0
  have nz : ∀ a b, (e.r : ℤ) ∣ b * s - a → ¬ (e.r : ℤ) ∣ a ∨ prof = .release → ¬ (e.r : ℤ) ∣ b ∨ prof = .release :=
    fun a b hab => Or.imp (fun ha hb => ha ((Int.dvd_iff_dvd_of_dvd_sub hab).1 (Dvd.dvd.mul_right hb s))) id
  obtain ⟨X, eX, dX⟩ := key G A x hd hA0 (hn _ (by simp))
  obtain ⟨K, eK, dK⟩ := key G A k hd hA0 (hn _ (by simp))
  obtain ⟨U, eU, dU⟩ := key G A u hd hA0 (nz z u hu (hn _ (by simp)))
  obtain ⟨M, eM, dM⟩ := key X _ v dX (hkill x) (nz t v hv (hn _ (by simp)))
  obtain ⟨V, eV, dV⟩ := (C23_group_law p e h.curve h.complete U M _ _ dU dM).1
  rw [smul_smul, ← add_zsmul] at dV
  have hfin : ((u + v * x) • A = k • A) ↔ (e.r : ℤ) ∣ s * k - (z + t * x) := by
    rw [Inst.smul_eq_iff hA]
    have h1 : (e.r : ℤ) ∣ (u + v * x - k) * s - -(s * k - (z + t * x)) := by
      have := dvd_add hu (Dvd.dvd.mul_right hv x)
      rwa [show (u + v * x - k) * s - -(s * k - (z + t * x)) = u * s - z + (v * s - t) * x by ring]
    rw [← dvd_neg (b := s * k - (z + t * x)), ← Int.dvd_iff_dvd_of_dvd_sub h1]
    exact ⟨fun h => Dvd.dvd.mul_right h s, fun h => (Int.Prime.dvd_mul' hrp h).resolve_right hs0⟩
  simp only [hG, Weierstrass.Curve.newScalar, scalar_new_eq e.r hr1, R.ok_bind, eX, eK, eu, ev, eU, eM, eV, C27_eq p e _ _ _ _ dV dK, hfin]
  congr

/-- Key agreement on a Montgomery curve: both parties multiply the generator by their secret, send the encoding (`c`: compressed), decode
what they receive, multiply by their secret and encode the result (`c'`: compressed). -/
def mAgree (prof : Profile) (e : Montgomery.Curve) (a b : ℤ) (c c' : Bool) : R (List Byte × List Byte) := do
  let g ← e.getGenerator
  let sa ← e.newScalar a
  let sb ← e.newScalar b
  let wa ← (← g.mul prof sa).encode c
  let wb ← (← g.mul prof sb).encode c
  let ka ← (← (← unwrap (e.decode wb)).mul prof sa).encode c'
  let kb ← (← (← unwrap (e.decode wa)).mul prof sb).encode c'
  return (ka, kb)

/-- C77, Montgomery: key agreement. For all secrets `a` and `b` that are not multiples of the order, nothing panics, both parties
compute the same bytes, and these are the encoding of `G * (a b)`. -/
theorem _root_.Redox.Props.C77_montgomery (e : Montgomery.Curve) (h : MValid p e) (hs : p % 4 = 3 ∨ p % 8 = 5)
    (prof : Profile) (a b : ℤ) (ha : ¬ (e.getOrder : ℤ) ∣ a) (hb : ¬ (e.getOrder : ℤ) ∣ b) (c c' : Bool) :
    ∃ k, mAgree prof e a b c c' = R.ok (k, k) ∧
      (do let sa ← e.newScalar a
          let sb ← e.newScalar b
          (← (← e.getGenerator).mul prof (← sa.mul sb)).encode c') = R.ok k := by
  obtain ⟨G, A, hG, hd, hA⟩ := h.generator
  simp only [Montgomery.Curve.getOrder] at ha hb hA
  have hr1 : 1 ≤ e.r := h.order_prime.one_le
  have hkill : ∀ k : ℤ, e.r • (k • A) = 0 := fun k => by rw [smul_comm, ← hA, addOrderOf_nsmul_eq_zero, smul_zero]
  have hab := not_dvd_mul h.order_prime ha hb
  simp only [Montgomery.Curve.getOrder] at hab
  have key : ∀ P B k, MDenotes p e P B → e.r • B = 0 → ¬ (e.r : ℤ) ∣ k →
      ∃ S, P.mul prof ⟨k % e.r, e.r⟩ = R.ok S ∧ MDenotes p e S (k • B) := by
    intro P B k hP hB hk
    have := C33_integer_partial p e h.curve h.b_one h.complete h.order_bits hr1 prof P B hP hB k (Or.inl hk)
    rwa [Montgomery.Curve.newScalar, scalar_new_eq e.r hr1, R.ok_bind] at this
  have hA0 : e.r • A = 0 := by have := hkill 1; rwa [one_smul] at this
  obtain ⟨SA, eA, dA⟩ := key G A a hd hA0 ha
  obtain ⟨SB, eB, dB⟩ := key G A b hd hA0 hb
  obtain ⟨SC, eC, dC⟩ := key G A (a * b) hd hA0 hab
  have round : ∀ P B, MDenotes p e P B → B ≠ 0 → ∀ c, ∃ bs Q, P.encode c = R.ok bs ∧ e.decode bs = R.ok (.ok Q) ∧ MDenotes p e Q B := by
    intro P B hP hB c
    obtain ⟨bs, Q, h1, -, h3, h4, -⟩ := C34_roundtrip_partial p e h.curve h.b_one hs P B hP hB c
    exact ⟨bs, Q, h1, h3, h4⟩
  obtain ⟨wa, QA, e1, e2, d2⟩ := round SA _ dA (smul_ne hA ha) c
  obtain ⟨wb, QB, e3, e4, d4⟩ := round SB _ dB (smul_ne hA hb) c
  obtain ⟨TA, eTA, dTA⟩ := key QB _ a d4 (hkill b) ha
  obtain ⟨TB, eTB, dTB⟩ := key QA _ b d2 (hkill a) hb
  rw [smul_smul] at dTA dTB
  rw [mul_comm] at dTB
  obtain ⟨k, -, hk, -, -⟩ := round SC _ dC (smul_ne hA hab) c'
  have same : ∀ T, MDenotes p e T ((a * b) • A) → T.encode c' = R.ok k := fun T hT => by
    rw [← hk]
    exact (C34_canonical_partial p e h.curve c' T SC _ _ hT dC).1 rfl
  refine ⟨k, ?_, ?_⟩
  · simp only [mAgree, unwrap, Montgomery.Curve.newScalar, scalar_new_eq e.r hr1, hG, R.ok_bind, eA, eB, e1, e3, e2, e4, R.bind, eTA, eTB,
      same TA dTA, same TB dTB, R.pure_eq]
  · simp only [Montgomery.Curve.newScalar, scalar_new_eq e.r hr1, hG, R.ok_bind, scalar_mul_new hr1, eC, hk]

/-- C78, Montgomery: the verification equation of Schnorr signatures. For a secret `x`, a nonce `k` and a challenge `m`, the check
`G * s == G * k + (G * x) * m` accepts exactly the response `s ≡ k + m x` modulo the order, and the response computed with the
scalar operations is accepted. In debug builds no scalar may be zero (C33). -/
theorem _root_.Redox.Props.C78_montgomery_partial (e : Montgomery.Curve) (h : MValid p e) (prof : Profile) (x k m s : ℤ)
    (h0 : (∀ n ∈ [x, k, m, s, k + m * x], ¬ (e.getOrder : ℤ) ∣ n) ∨ prof = .release) :
    (do let g ← e.getGenerator
        let X ← g.mul prof (← e.newScalar x)
        let K ← g.mul prof (← e.newScalar k)
        (← g.mul prof (← e.newScalar s)).eq (← K.add (← X.mul prof (← e.newScalar m)))) =
      R.ok (decide ((e.getOrder : ℤ) ∣ s - (k + m * x))) ∧
    (do let g ← e.getGenerator
        let sx ← e.newScalar x
        let sk ← e.newScalar k
        let sm ← e.newScalar m
        let X ← g.mul prof sx
        let K ← g.mul prof sk
        let t ← sk.add (← sm.mul sx)
        (← g.mul prof t).eq (← K.add (← X.mul prof sm))) = R.ok true := by
  obtain ⟨G, A, hG, hd, hA⟩ := h.generator
  simp only [Montgomery.Curve.getOrder] at h0 hA ⊢
  have hr1 : 1 ≤ e.r := h.order_prime.one_le
  have hkill : ∀ k : ℤ, e.r • (k • A) = 0 := fun k => by rw [smul_comm, ← hA, addOrderOf_nsmul_eq_zero, smul_zero]
  have key : ∀ P B k, MDenotes p e P B → e.r • B = 0 → (¬ (e.r : ℤ) ∣ k ∨ prof = .release) →
      ∃ S, P.mul prof ⟨k % e.r, e.r⟩ = R.ok S ∧ MDenotes p e S (k • B) := by
    intro P B k hP hB hk
    have := C33_integer_partial p e h.curve h.b_one h.complete h.order_bits hr1 prof P B hP hB k hk
    rwa [Montgomery.Curve.newScalar, scalar_new_eq e.r hr1, R.ok_bind] at this
  have hA0 : e.r • A = 0 := by have := hkill 1; rwa [one_smul] at this
  have hn : ∀ n ∈ [x, k, m, s, k + m * x], ¬ (e.r : ℤ) ∣ n ∨ prof = .release := fun n hn => h0.imp (fun h => h n hn) id
  obtain ⟨X, eX, dX⟩ := key G A x hd hA0 (hn _ (by simp))
  obtain ⟨K, eK, dK⟩ := key G A k hd hA0 (hn _ (by simp))
  obtain ⟨S, eS, dS⟩ := key G A s hd hA0 (hn _ (by simp))
  obtain ⟨T, eT, dT⟩ := key G A (k + m * x) hd hA0 (hn _ (by simp))
  obtain ⟨M, eM, dM⟩ := key X _ m dX (hkill x) (hn _ (by simp))
  obtain ⟨V, eV, dV⟩ := (C32_group_law_partial p e h.curve h.b_one h.complete K M _ _ dK dM).1
  rw [smul_smul, ← add_zsmul] at dV
  constructor
  · simp only [hG, Montgomery.Curve.newScalar, scalar_new_eq e.r hr1, R.ok_bind, eX, eK, eS, eM, eV,
      (C32_eq p e _ _ _ _ dS dV).1, Inst.smul_eq_iff hA]
    rfl
  · simp only [hG, Montgomery.Curve.newScalar, scalar_new_eq e.r hr1, R.ok_bind, eX, eK, scalar_mul_new hr1, scalar_add_new hr1, eT, eM, eV,
      (C32_eq p e _ _ _ _ dT dV).1, decide_eq_true]

/-- C79, Montgomery: the verification equation of ECDSA. For a secret `x`, a nonce `k`, a message representative `z` and the integer `t` made
from the nonce point, with `s = (z + t x) / k`, the point `G * (z / s) + (G * x) * (t / s)` equals `G * k`. The nonce and `s` are not
zero modulo the order; in debug builds no other scalar may be zero either (C33). -/
theorem _root_.Redox.Props.C79_montgomery_partial (e : Montgomery.Curve) (h : MValid p e) (hr2 : e.getOrder ≠ 2) (prof : Profile)
    (x k z t : ℤ) (hk : ¬ (e.getOrder : ℤ) ∣ k) (hs : ¬ (e.getOrder : ℤ) ∣ z + t * x)
    (h0 : (∀ n ∈ [x, z, t], ¬ (e.getOrder : ℤ) ∣ n) ∨ prof = .release) :
    (do let g ← e.getGenerator
        let sx ← e.newScalar x
        let sk ← e.newScalar k
        let sz ← e.newScalar z
        let st ← e.newScalar t
        let X ← g.mul prof sx
        let K ← g.mul prof sk
        let s ← (← sz.add (← st.mul sx)).div sk
        let V ← (← g.mul prof (← sz.div s)).add (← X.mul prof (← st.div s))
        V.eq K) = R.ok true := by
  obtain ⟨G, A, hG, hd, hA⟩ := h.generator
  have hrp := h.order_prime
  simp only [Montgomery.Curve.getOrder] at h0 hA hk hs hr2 hrp
  have hr1 : 1 ≤ e.r := hrp.one_le
  have hkill : ∀ k : ℤ, e.r • (k • A) = 0 := fun k => by rw [smul_comm, ← hA, addOrderOf_nsmul_eq_zero, smul_zero]
  have key : ∀ P B k, MDenotes p e P B → e.r • B = 0 → (¬ (e.r : ℤ) ∣ k ∨ prof = .release) →
      ∃ S, P.mul prof ⟨k % e.r, e.r⟩ = R.ok S ∧ MDenotes p e S (k • B) := by
    intro P B k hP hB hk
    have := C33_integer_partial p e h.curve h.b_one h.complete h.order_bits hr1 prof P B hP hB k hk
    rwa [Montgomery.Curve.newScalar, scalar_new_eq e.r hr1, R.ok_bind] at this
  have hA0 : e.r • A = 0 := by have := hkill 1; rwa [one_smul] at this
  have hn : ∀ n ∈ [x, z, t], ¬ (e.r : ℤ) ∣ n ∨ prof = .release := fun n hn => h0.imp (fun h => h n hn) id
  obtain ⟨s, es, hsk⟩ := scalar_div_new hrp hr2 (z + t * x) k hk
  have hs0 : ¬ (e.r : ℤ) ∣ s := fun hd => hs ((Int.dvd_iff_dvd_of_dvd_sub hsk).1 (Dvd.dvd.mul_right hd k))
  obtain ⟨u, eu, hu⟩ := scalar_div_new hrp hr2 z s hs0
  obtain ⟨v, ev, hv⟩ := scalar_div_new hrp hr2 t s hs0
  have nz : ∀ a b, (e.r : ℤ) ∣ b * s - a → ¬ (e.r : ℤ) ∣ a ∨ prof = .release → ¬ (e.r : ℤ) ∣ b ∨ prof = .release :=
    fun a b hab => Or.imp (fun ha hb => ha ((Int.dvd_iff_dvd_of_dvd_sub hab).1 (Dvd.dvd.mul_right hb s))) id
  obtain ⟨X, eX, dX⟩ := key G A x hd hA0 (hn _ (by simp))
  obtain ⟨K, eK, dK⟩ := key G A k hd hA0 (Or.inl hk)
  obtain ⟨U, eU, dU⟩ := key G A u hd hA0 (nz z u hu (hn _ (by simp)))
  obtain ⟨M, eM, dM⟩ := key X _ v dX (hkill x) (nz t v hv (hn _ (by simp)))
  obtain ⟨V, eV, dV⟩ := (C32_group_law_partial p e h.curve h.b_one h.complete U M _ _ dU dM).1
  rw [smul_smul, ← add_zsmul] at dV
  have hfin : (u + v * x) • A = k • A := by
    rw [Inst.smul_eq_iff hA]
    have h1 : (e.r : ℤ) ∣ (u + v * x - k) * s := by
      have := (hu.add (hv.mul_right x)).sub hsk
      refine (Int.dvd_iff_dvd_of_dvd_sub ?_).1 this
      exact ⟨0, by ring⟩
    exact (Int.Prime.dvd_mul' hrp h1).resolve_right hs0
  simp only [hG, Montgomery.Curve.newScalar, scalar_new_eq e.r hr1, R.ok_bind, eX, eK, scalar_mul_new hr1, scalar_add_new hr1, es, eu, ev, eU, eM, eV,
    (C32_eq p e _ _ _ _ dV dK).1, hfin, decide_eq_true]

/-- C79, Montgomery, every claimed `s`: for a secret `x`, a nonce `k`, a message representative `z`, the integer `t` made from the nonce point and any
`s` that is not zero modulo the order, `G * (z / s) + (G * x) * (t / s) == G * k` exactly if `s k ≡ z + t x` modulo the order. -/
theorem _root_.Redox.Props.C79_montgomery_accepts_partial (e : Montgomery.Curve) (h : MValid p e) (hr2 : e.getOrder ≠ 2) (prof : Profile)
    (x k z t s : ℤ) (hs0 : ¬ (e.getOrder : ℤ) ∣ s) (h0 : (∀ n ∈ [x, k, z, t], ¬ (e.getOrder : ℤ) ∣ n) ∨ prof = .release) :
    (do let g ← e.getGenerator
        let X ← g.mul prof (← e.newScalar x)
        let K ← g.mul prof (← e.newScalar k)
        let ss ← e.newScalar s
        let V ← (← g.mul prof (← (← e.newScalar z).div ss)).add (← X.mul prof (← (← e.newScalar t).div ss))
        V.eq K) = R.ok (decide ((e.getOrder : ℤ) ∣ s * k - (z + t * x))) := by
  obtain ⟨G, A, hG, hd, hA⟩ := h.generator
  have hrp := h.order_prime
  simp only [Montgomery.Curve.getOrder] at h0 hA hs0 hr2 hrp ⊢
  have hr1 : 1 ≤ e.r := hrp.one_le
  have hkill : ∀ k : ℤ, e.r • (k • A) = 0 := fun k => by rw [smul_comm, ← hA, addOrderOf_nsmul_eq_zero, smul_zero]
  have key : ∀ P B k, MDenotes p e P B → e.r • B = 0 → (¬ (e.r : ℤ) ∣ k ∨ prof = .release) →
      ∃ S, P.mul prof ⟨k % e.r, e.r⟩ = R.ok S ∧ MDenotes p e S (k • B) := by
    intro P B k hP hB hk
    have := C33_integer_partial p e h.curve h.b_one h.complete h.order_bits hr1 prof P B hP hB k hk
    rwa [Montgomery.Curve.newScalar, scalar_new_eq e.r hr1, R.ok_bind] at this
  have hA0 : e.r • A = 0 := by have := hkill 1; rwa [one_smul] at this
  have hn : ∀ n ∈ [x, k, z, t], ¬ (e.r : ℤ) ∣ n ∨ prof = .release := fun n hn => h0.imp (fun h => h n hn) id
  obtain ⟨u, eu, hu⟩ := scalar_div_new hrp hr2 z s hs0
  obtain ⟨v, ev, hv⟩ := scalar_div_new hrp hr2 t s hs0
  have nz : ∀ a b, (e.r : ℤ) ∣ b * s - a → ¬ (e.r : ℤ) ∣ a ∨ prof = .release → ¬ (e.r : ℤ) ∣ b ∨ prof = .release :=
    fun a b hab => Or.imp (fun ha hb => ha ((Int.dvd_iff_dvd_of_dvd_sub hab).1 (Dvd.dvd.mul_right hb s))) id
  obtain ⟨X, eX, dX⟩ := key G A x hd hA0 (hn _ (by simp))
  obtain ⟨K, eK, dK⟩ := key G A k hd hA0 (hn _ (by simp))
  obtain ⟨U, eU, dU⟩ := key G A u hd hA0 (nz z u hu (hn _ (by simp)))
  obtain ⟨M, eM, dM⟩ := key X _ v dX (hkill x) (nz t v hv (hn _ (by simp)))
  obtain ⟨V, eV, dV⟩ := (C32_group_law_partial p e h.curve h.b_one h.complete U M _ _ dU dM).1
  rw [smul_smul, ← add_zsmul] at dV
  have hfin : ((u + v * x) • A = k • A) ↔ (e.r : ℤ) ∣ s * k - (z + t * x) := by
    rw [Inst.smul_eq_iff hA]
    have h1 : (e.r : ℤ) ∣ (u + v * x - k) * s - -(s * k - (z + t * x)) := by
      have := dvd_add hu (Dvd.dvd.mul_right hv x)
      rwa [show (u + v * x - k) * s - -(s * k - (z + t * x)) = u * s - z + (v * s - t) * x by ring]
    rw [← dvd_neg (b := s * k - (z + t * x)), ← Int.dvd_iff_dvd_of_dvd_sub h1]
    exact ⟨fun h => Dvd.dvd.mul_right h s, fun h => (Int.Prime.dvd_mul' hrp h).resolve_right hs0⟩
  simp only [hG, Montgomery.Curve.newScalar, scalar_new_eq e.r hr1, R.ok_bind, eX, eK, eu, ev, eU, eM, eV, (C32_eq p e _ _ _ _ dV dK).1, hfin]
  congr

/-- Key agreement on a Edwards curve: both parties multiply the generator by their secret, send the encoding (`c`: compressed), decode
what they receive, multiply by their secret and encode the result (`c'`: compressed). -/
def eAgree (prof : Profile) (e : Edwards.Curve) (a b : ℤ) (c c' : Bool) : R (List Byte × List Byte) := do
  let g ← e.getGenerator
  let sa ← e.newScalar a
  let sb ← e.newScalar b
  let wa ← (← g.mul prof sa).encode c
  let wb ← (← g.mul prof sb).encode c
  let ka ← (← (← unwrap (e.decode wb)).mul prof sa).encode c'
  let kb ← (← (← unwrap (e.decode wa)).mul prof sb).encode c'
  return (ka, kb)

/-- C77, Edwards: key agreement. For all secrets `a` and `b` that are not multiples of the order, nothing panics, both parties
compute the same bytes, and these are the encoding of `G * (a b)`. -/
theorem _root_.Redox.Props.C77_edwards (e : Edwards.Curve) (h : EValid p e) (hs : p % 4 = 3 ∨ p % 8 = 5)
    (prof : Profile) (a b : ℤ) (ha : ¬ (e.getOrder : ℤ) ∣ a) (hb : ¬ (e.getOrder : ℤ) ∣ b) (c c' : Bool) :
    ∃ k, eAgree prof e a b c c' = R.ok (k, k) ∧
      (do let sa ← e.newScalar a
          let sb ← e.newScalar b
          (← (← e.getGenerator).mul prof (← sa.mul sb)).encode c') = R.ok k := by
  have := h.curve
  obtain ⟨G, A, hG, hd, hA⟩ := h.generator
  simp only [Edwards.Curve.getOrder] at ha hb hA
  have hr1 : 1 ≤ e.r := h.order_prime.one_le
  have hkill : ∀ k : ℤ, e.r • (k • A) = 0 := fun k => by rw [smul_comm, ← hA, addOrderOf_nsmul_eq_zero, smul_zero]
  have hab := not_dvd_mul h.order_prime ha hb
  simp only [Edwards.Curve.getOrder] at hab
  have key : ∀ P B k, EDenotes p e P B → e.r • B = 0 → ¬ (e.r : ℤ) ∣ k →
      ∃ S, P.mul prof ⟨k % e.r, e.r⟩ = R.ok S ∧ EDenotes p e S (k • B) := by
    intro P B k hP hB hk
    have := C37_integer_partial p e h.order_bits hr1 prof P B hP hB k (Or.inl hk)
    rwa [Edwards.Curve.newScalar, scalar_new_eq e.r hr1, R.ok_bind] at this
  have hA0 : e.r • A = 0 := by have := hkill 1; rwa [one_smul] at this
  obtain ⟨SA, eA, dA⟩ := key G A a hd hA0 ha
  obtain ⟨SB, eB, dB⟩ := key G A b hd hA0 hb
  obtain ⟨SC, eC, dC⟩ := key G A (a * b) hd hA0 hab
  have round : ∀ P B, EDenotes p e P B → ∀ c, ∃ bs Q, P.encode c = R.ok bs ∧ e.decode bs = R.ok (.ok Q) ∧ EDenotes p e Q B := by
    intro P B hP c
    obtain ⟨bs, Q, h1, -, -, h3, h4, -⟩ := C39_roundtrip p e hs P B hP c
    exact ⟨bs, Q, h1, h3, h4⟩
  obtain ⟨wa, QA, e1, e2, d2⟩ := round SA _ dA c
  obtain ⟨wb, QB, e3, e4, d4⟩ := round SB _ dB c
  obtain ⟨TA, eTA, dTA⟩ := key QB _ a d4 (hkill b) ha
  obtain ⟨TB, eTB, dTB⟩ := key QA _ b d2 (hkill a) hb
  rw [smul_smul] at dTA dTB
  rw [mul_comm] at dTB
  obtain ⟨k, -, hk, -, -⟩ := round SC _ dC c'
  have same : ∀ T, EDenotes p e T ((a * b) • A) → T.encode c' = R.ok k := fun T hT => by
    rw [← hk]
    exact (C39_injective p e hs T SC _ _ hT dC c' c').2 rfl
  refine ⟨k, ?_, ?_⟩
  · simp only [eAgree, unwrap, Edwards.Curve.newScalar, scalar_new_eq e.r hr1, hG, R.ok_bind, eA, eB, e1, e3, e2, e4, R.bind, eTA, eTB,
      same TA dTA, same TB dTB, R.pure_eq]
  · simp only [Edwards.Curve.newScalar, scalar_new_eq e.r hr1, hG, R.ok_bind, scalar_mul_new hr1, eC, hk]

/-- C78, Edwards: the verification equation of Schnorr signatures. For a secret `x`, a nonce `k` and a challenge `m`, the check
`G * s == G * k + (G * x) * m` accepts exactly the response `s ≡ k + m x` modulo the order, and the response computed with the
scalar operations is accepted. In debug builds no scalar may be zero (C37). -/
theorem _root_.Redox.Props.C78_edwards_partial (e : Edwards.Curve) (h : EValid p e) (prof : Profile) (x k m s : ℤ)
    (h0 : (∀ n ∈ [x, k, m, s, k + m * x], ¬ (e.getOrder : ℤ) ∣ n) ∨ prof = .release) :
    (do let g ← e.getGenerator
        let X ← g.mul prof (← e.newScalar x)
        let K ← g.mul prof (← e.newScalar k)
        (← g.mul prof (← e.newScalar s)).eq (← K.add (← X.mul prof (← e.newScalar m)))) =
      R.ok (decide ((e.getOrder : ℤ) ∣ s - (k + m * x))) ∧
    (do let g ← e.getGenerator
        let sx ← e.newScalar x
        let sk ← e.newScalar k
        let sm ← e.newScalar m
        let X ← g.mul prof sx
        let K ← g.mul prof sk
        let t ← sk.add (← sm.mul sx)
        (← g.mul prof t).eq (← K.add (← X.mul prof sm))) = R.ok true := by
  have := h.curve
  obtain ⟨G, A, hG, hd, hA⟩ := h.generator
  simp only [Edwards.Curve.getOrder] at h0 hA ⊢
  have hr1 : 1 ≤ e.r := h.order_prime.one_le
  have hkill : ∀ k : ℤ, e.r • (k • A) = 0 := fun k => by rw [smul_comm, ← hA, addOrderOf_nsmul_eq_zero, smul_zero]
  have key : ∀ P B k, EDenotes p e P B → e.r • B = 0 → (¬ (e.r : ℤ) ∣ k ∨ prof = .release) →
      ∃ S, P.mul prof ⟨k % e.r, e.r⟩ = R.ok S ∧ EDenotes p e S (k • B) := by
    intro P B k hP hB hk
    have := C37_integer_partial p e h.order_bits hr1 prof P B hP hB k hk
    rwa [Edwards.Curve.newScalar, scalar_new_eq e.r hr1, R.ok_bind] at this
  have hA0 : e.r • A = 0 := by have := hkill 1; rwa [one_smul] at this
  have hn : ∀ n ∈ [x, k, m, s, k + m * x], ¬ (e.r : ℤ) ∣ n ∨ prof = .release := fun n hn => h0.imp (fun h => h n hn) id
  obtain ⟨X, eX, dX⟩ := key G A x hd hA0 (hn _ (by simp))
  obtain ⟨K, eK, dK⟩ := key G A k hd hA0 (hn _ (by simp))
  obtain ⟨S, eS, dS⟩ := key G A s hd hA0 (hn _ (by simp))
  obtain ⟨T, eT, dT⟩ := key G A (k + m * x) hd hA0 (hn _ (by simp))
  obtain ⟨M, eM, dM⟩ := key X _ m dX (hkill x) (hn _ (by simp))
  obtain ⟨V, eV, dV⟩ := (C36_group_law p e K M _ _ dK dM).1
  rw [smul_smul, ← add_zsmul] at dV
  constructor
  · simp only [hG, Edwards.Curve.newScalar, scalar_new_eq e.r hr1, R.ok_bind, eX, eK, eS, eM, eV,
      C36_eq p e _ _ _ _ dS dV, Inst.smul_eq_iff hA]
    rfl
  · simp only [hG, Edwards.Curve.newScalar, scalar_new_eq e.r hr1, R.ok_bind, eX, eK, scalar_mul_new hr1, scalar_add_new hr1, eT, eM, eV,
      C36_eq p e _ _ _ _ dT dV, decide_eq_true]

/-- C79, Edwards: the verification equation of ECDSA. For a secret `x`, a nonce `k`, a message representative `z` and the integer `t` made
from the nonce point, with `s = (z + t x) / k`, the point `G * (z / s) + (G * x) * (t / s)` equals `G * k`. The nonce and `s` are not
zero modulo the order; in debug builds no other scalar may be zero either (C37). -/
theorem _root_.Redox.Props.C79_edwards_partial (e : Edwards.Curve) (h : EValid p e) (hr2 : e.getOrder ≠ 2) (prof : Profile)
    (x k z t : ℤ) (hk : ¬ (e.getOrder : ℤ) ∣ k) (hs : ¬ (e.getOrder : ℤ) ∣ z + t * x)
    (h0 : (∀ n ∈ [x, z, t], ¬ (e.getOrder : ℤ) ∣ n) ∨ prof = .release) :
    (do let g ← e.getGenerator
        let sx ← e.newScalar x
        let sk ← e.newScalar k
        let sz ← e.newScalar z
        let st ← e.newScalar t
        let X ← g.mul prof sx
        let K ← g.mul prof sk
        let s ← (← sz.add (← st.mul sx)).div sk
        let V ← (← g.mul prof (← sz.div s)).add (← X.mul prof (← st.div s))
        V.eq K) = R.ok true := by
  have := h.curve
  obtain ⟨G, A, hG, hd, hA⟩ := h.generator
  have hrp := h.order_prime
  simp only [Edwards.Curve.getOrder] at h0 hA hk hs hr2 hrp
  have hr1 : 1 ≤ e.r := hrp.one_le
  have hkill : ∀ k : ℤ, e.r • (k • A) = 0 := fun k => by rw [smul_comm, ← hA, addOrderOf_nsmul_eq_zero, smul_zero]
  have key : ∀ P B k, EDenotes p e P B → e.r • B = 0 → (¬ (e.r : ℤ) ∣ k ∨ prof = .release) →
      ∃ S, P.mul prof ⟨k % e.r, e.r⟩ = R.ok S ∧ EDenotes p e S (k • B) := by
    intro P B k hP hB hk
    have := C37_integer_partial p e h.order_bits hr1 prof P B hP hB k hk
    rwa [Edwards.Curve.newScalar, scalar_new_eq e.r hr1, R.ok_bind] at this
  have hA0 : e.r • A = 0 := by have := hkill 1; rwa [one_smul] at this
  have hn : ∀ n ∈ [x, z, t], ¬ (e.r : ℤ) ∣ n ∨ prof = .release := fun n hn => h0.imp (fun h => h n hn) id
  obtain ⟨s, es, hsk⟩ := scalar_div_new hrp hr2 (z + t * x) k hk
  have hs0 : ¬ (e.r : ℤ) ∣ s := fun hd => hs ((Int.dvd_iff_dvd_of_dvd_sub hsk).1 (Dvd.dvd.mul_right hd k))
  obtain ⟨u, eu, hu⟩ := scalar_div_new hrp hr2 z s hs0
  obtain ⟨v, ev, hv⟩ := scalar_div_new hrp hr2 t s hs0
  have nz : ∀ a b, (e.r : ℤ) ∣ b * s - a → ¬ (e.r : ℤ) ∣ a ∨ prof = .release → ¬ (e.r : ℤ) ∣ b ∨ prof = .release :=
    fun a b hab => Or.imp (fun ha hb => ha ((Int.dvd_iff_dvd_of_dvd_sub hab).1 (Dvd.dvd.mul_right hb s))) id
  obtain ⟨X, eX, dX⟩ := key G A x hd hA0 (hn _ (by simp))
  obtain ⟨K, eK, dK⟩ := key G A k hd hA0 (Or.inl hk)
  obtain ⟨U, eU, dU⟩ := key G A u hd hA0 (nz z u hu (hn _ (by simp)))
  obtain ⟨M, eM, dM⟩ := key X _ v dX (hkill x) (nz t v hv (hn _ (by simp)))
  obtain ⟨V, eV, dV⟩ := (C36_group_law p e U M _ _ dU dM).1
  rw [smul_smul, ← add_zsmul] at dV
  have hfin : (u + v * x) • A = k • A := by
    rw [Inst.smul_eq_iff hA]
    have h1 : (e.r : ℤ) ∣ (u + v * x - k) * s := by
      have := (hu.add (hv.mul_right x)).sub hsk
      refine (Int.dvd_iff_dvd_of_dvd_sub ?_).1 this
      exact ⟨0, by ring⟩
    exact (Int.Prime.dvd_mul' hrp h1).resolve_right hs0
  simp only [hG, Edwards.Curve.newScalar, scalar_new_eq e.r hr1, R.ok_bind, eX, eK, scalar_mul_new hr1, scalar_add_new hr1, es, eu, ev, eU, eM, eV,
    C36_eq p e _ _ _ _ dV dK, hfin, decide_eq_true]

/-- C79, Edwards, every claimed `s`: for a secret `x`, a nonce `k`, a message representative `z`, the integer `t` made from the nonce point and any
`s` that is not zero modulo the order, `G * (z / s) + (G * x) * (t / s) == G * k` exactly if `s k ≡ z + t x` modulo the order. -/
theorem _root_.Redox.Props.C79_edwards_accepts_partial (e : Edwards.Curve) (h : EValid p e) (hr2 : e.getOrder ≠ 2) (prof : Profile)
    (x k z t s : ℤ) (hs0 : ¬ (e.getOrder : ℤ) ∣ s) (h0 : (∀ n ∈ [x, k, z, t], ¬ (e.getOrder : ℤ) ∣ n) ∨ prof = .release) :
    (do let g ← e.getGenerator
        let X ← g.mul prof (← e.newScalar x)
        let K ← g.mul prof (← e.newScalar k)
        let ss ← e.newScalar s
        let V ← (← g.mul prof (← (← e.newScalar z).div ss)).add (← X.mul prof (← (← e.newScalar t).div ss))
        V.eq K) = R.ok (decide ((e.getOrder : ℤ) ∣ s * k - (z + t * x))) := by
  have := h.curve
  obtain ⟨G, A, hG, hd, hA⟩ := h.generator
  have hrp := h.order_prime
  simp only [Edwards.Curve.getOrder] at h0 hA hs0 hr2 hrp ⊢
  have hr1 : 1 ≤ e.r := hrp.one_le
  have hkill : ∀ k : ℤ, e.r • (k • A) = 0 := fun k => by rw [smul_comm, ← hA, addOrderOf_nsmul_eq_zero, smul_zero]
  have key : ∀ P B k, EDenotes p e P B → e.r • B = 0 → (¬ (e.r : ℤ) ∣ k ∨ prof = .release) →
      ∃ S, P.mul prof ⟨k % e.r, e.r⟩ = R.ok S ∧ EDenotes p e S (k • B) := by
    intro P B k hP hB hk
    have := C37_integer_partial p e h.order_bits hr1 prof P B hP hB k hk
    rwa [Edwards.Curve.newScalar, scalar_new_eq e.r hr1, R.ok_bind] at this
  have hA0 : e.r • A = 0 := by have := hkill 1; rwa [one_smul] at this
  have hn : ∀ n ∈ [x, k, z, t], ¬ (e.r : ℤ) ∣ n ∨ prof = .release := fun n hn => h0.imp (fun h => h n hn) id
  obtain ⟨u, eu, hu⟩ := scalar_div_new hrp hr2 z s hs0
  obtain ⟨v, ev, hv⟩ := scalar_div_new hrp hr2 t s hs0
  have nz : ∀ a b, (e.r : ℤ) ∣ b * s - a → ¬ (e.r : ℤ) ∣ a ∨ prof = .release → ¬ (e.r : ℤ) ∣ b ∨ prof = .release :=
    fun a b hab => Or.imp (fun ha hb => ha ((Int.dvd_iff_dvd_of_dvd_sub hab).1 (Dvd.dvd.mul_right hb s))) id
  obtain ⟨X, eX, dX⟩ := key G A x hd hA0 (hn _ (by simp))
  obtain ⟨K, eK, dK⟩ := key G A k hd hA0 (hn _ (by simp))
  obtain ⟨U, eU, dU⟩ := key G A u hd hA0 (nz z u hu (hn _ (by simp)))
  obtain ⟨M, eM, dM⟩ := key X _ v dX (hkill x) (nz t v hv (hn _ (by simp)))
  obtain ⟨V, eV, dV⟩ := (C36_group_law p e U M _ _ dU dM).1
  rw [smul_smul, ← add_zsmul] at dV
  have hfin : ((u + v * x) • A = k • A) ↔ (e.r : ℤ) ∣ s * k - (z + t * x) := by
    rw [Inst.smul_eq_iff hA]
    have h1 : (e.r : ℤ) ∣ (u + v * x - k) * s - -(s * k - (z + t * x)) := by
      have := dvd_add hu (Dvd.dvd.mul_right hv x)
      rwa [show (u + v * x - k) * s - -(s * k - (z + t * x)) = u * s - z + (v * s - t) * x by ring]
    rw [← dvd_neg (b := s * k - (z + t * x)), ← Int.dvd_iff_dvd_of_dvd_sub h1]
    exact ⟨fun h => Dvd.dvd.mul_right h s, fun h => (Int.Prime.dvd_mul' hrp h).resolve_right hs0⟩
  simp only [hG, Edwards.Curve.newScalar, scalar_new_eq e.r hr1, R.ok_bind, eX, eK, eu, ev, eU, eM, eV, C36_eq p e _ _ _ _ dV dK, hfin]
  congr

end

/-- The hypotheses hold for the eleven named curves (C49); here P256, CURVE25519 and EDWARDS25519. -/
example : WValid p256_p p256 ∧ p256_p % 4 = 3 ∧ MValid curve25519_p curve25519 ∧ EValid curve25519_p edwards25519 ∧
    curve25519_p % 8 = 5 ∧ ¬ ((p256.getOrder : ℤ) ∣ 2) ∧ ¬ ((p256.getOrder : ℤ) ∣ 3 + 5 * 2) := by
  refine ⟨p256_valid, by decide +kernel, curve25519_valid, edwards25519_valid, by decide +kernel, by decide +kernel, by decide +kernel⟩

/-- A run of key agreement on EDWARDS25519 with secrets 2 and 3. -/
example : (do let (ka, kb) ← eAgree .debug edwards25519 2 3 true true
              return (ka.length, ka == kb)) = R.ok (32, true) := by decide +kernel

/-- With `x = 2`, `k = 3`, `z = 4`, `t = 1` on P256 the claim `s = 2` is right and `s = 1` is wrong; no scalar is zero modulo the order. -/
example : (∀ n ∈ ([2, 3, 4, 1] : List ℤ), ¬ (p256.getOrder : ℤ) ∣ n) ∧ p256.getOrder ≠ 2 ∧
    (p256.getOrder : ℤ) ∣ 2 * 3 - (4 + 1 * 2) ∧ ¬ (p256.getOrder : ℤ) ∣ 1 * 3 - (4 + 1 * 2) := by
  refine ⟨?_, by decide +kernel, by decide +kernel, by decide +kernel⟩
  decide +kernel

end Redox.Props.Flow
