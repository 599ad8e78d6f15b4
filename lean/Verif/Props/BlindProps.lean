import Verif.Props.FlowProps

/-!
# C86 and C87: blinded evaluation and proofs of equal discrete logarithms
-/

set_option linter.unusedSectionVars false

namespace Redox.Props.Flow

open Spec Redox.Inst

theorem scalar_inv_new {r : ℕ} (hr : r.Prime) (h2 : r ≠ 2) (b : ℤ) (hb : ¬ (r : ℤ) ∣ b) :
    ∃ c : ℤ, Scalar.u32Div 1 ⟨b % r, r⟩ = R.ok ⟨c % r, r⟩ ∧ (r : ℤ) ∣ c * b - 1 := by
  have h1 := hr.one_le
  have hpos : (0 : ℤ) < r := by exact_mod_cast hr.pos
  have hc : ∀ z : ℤ, CanonScalar r ⟨z % r, r⟩ := fun z => ⟨rfl, Int.emod_nonneg _ hpos.ne', Int.emod_lt_of_pos _ hpos⟩
  obtain ⟨⟨qk, qr⟩, hq, ⟨hqr, hq0, hq1⟩, hm⟩ := (C19_div r hr h2 _ _ (hc 1) (hc b)).2.1 fun h => hb (Int.dvd_of_emod_eq_zero h)
  simp only at hqr hq0 hq1
  subst hqr
  have hqm : qk % r = qk := Int.emod_eq_of_lt hq0 hq1
  refine ⟨qk, by rw [hq, hqm], ?_⟩
  rw [← hqm, scalar_mul_new h1, scalar_new_eq r h1, R.ok.injEq, Scalar.mk.injEq] at hm
  exact Int.ModEq.dvd hm.1.symm

theorem zsmul_congr {G : Type*} [AddCommGroup G] {A : G} {r : ℕ} (h : r • A = 0) {a b : ℤ} (hab : (r : ℤ) ∣ a - b) : a • A = b • A := by
  obtain ⟨c, hc⟩ := hab
  rw [← sub_eq_zero, sub_eq_add_neg, ← sub_zsmul, hc, mul_comm, mul_zsmul, natCast_zsmul, h, zsmul_zero]

theorem killed_smul {G : Type*} [AddCommGroup G] {A : G} {r : ℕ} (h : r • A = 0) (k : ℤ) : r • (k • A) = 0 := by
  rw [smul_comm, h, smul_zero]

theorem order_of_killed {G : Type*} [AddCommGroup G] {A : G} {r : ℕ} (hr : r.Prime) (h : r • A = 0) (h0 : A ≠ 0) : addOrderOf A = r := by
  have := Fact.mk hr
  exact addOrderOf_eq_prime h h0

/-- Special soundness in terms of integers. -/
theorem special_sound {r : ℕ} (hr : r.Prime) {x y k l m s m' s' : ℤ} (h1 : (r : ℤ) ∣ s - (k + m * x)) (h2 : (r : ℤ) ∣ s - (l + m * y))
    (h3 : (r : ℤ) ∣ s' - (k + m' * x)) (h4 : (r : ℤ) ∣ s' - (l + m' * y)) (hm : ¬ (r : ℤ) ∣ m - m') : (r : ℤ) ∣ x - y := by
  have h : (r : ℤ) ∣ (m - m') * (x - y) := by
    have := ((h2.sub h1).sub (h4.sub h3))
    have e : (m - m') * (x - y) = s - (l + m * y) - (s - (k + m * x)) - (s' - (l + m' * y) - (s' - (k + m' * x))) := by ring
    rwa [e]
  exact (Int.Prime.dvd_mul' hr h).resolve_left hm

section
variable (p : ℕ) [Fact p.Prime]

/-- Blinded evaluation on a Weierstrass curve. The client multiplies the point by the blind `k` and sends the encoding; the server decodes, multiplies
by its key `s` and sends the encoding back; the client decodes, multiplies by `1 / k` and encodes the result. -/
def wBlind (prof : Profile) (e : Weierstrass.Curve) (P : Weierstrass.Point) (k s : ℤ) (c c' : Bool) : R (List Byte) := do
  let sk ← e.newScalar k
  let ss ← e.newScalar s
  let w ← (← P.mul prof sk).encode c
  let w' ← (← (← unwrap (e.decode w)).mul prof ss).encode c
  (← (← unwrap (e.decode w')).mul prof (← Scalar.u32Div 1 sk)).encode c'

/-- C86, Weierstrass: for every point other than the identity that the order kills, every blind and every key, nothing panics, and the bytes the
client gets are those of `P * s`, whatever the blind. -/
theorem _root_.Redox.Props.C86_weierstrass (e : Weierstrass.Curve) (h : WValid p e) (hr2 : e.getOrder ≠ 2) (hs : p % 4 = 3 ∨ p % 8 = 5)
    (prof : Profile) (P : Weierstrass.Point) (A : (wGroup p e).Point) (hP : WDenotes p e P A) (hA : e.getOrder • A = 0) (hA0 : A ≠ 0)
    (k s : ℤ) (hk : ¬ (e.getOrder : ℤ) ∣ k) (hs' : ¬ (e.getOrder : ℤ) ∣ s) (c c' : Bool) :
    ∃ bs, wBlind prof e P k s c c' = R.ok bs ∧ (do (← P.mul prof (← e.newScalar s)).encode c') = R.ok bs := by
  have hrp := h.order_prime
  simp only [Weierstrass.Curve.getOrder] at hA hk hs' hr2 hrp
  have hr1 : 1 ≤ e.r := hrp.one_le
  have hord := order_of_killed hrp hA hA0
  have hkill : ∀ k : ℤ, e.r • (k • A) = 0 := killed_smul hA
  have key : ∀ P B k, WDenotes p e P B → e.r • B = 0 → ¬ (e.r : ℤ) ∣ k →
      ∃ S, P.mul prof ⟨k % e.r, e.r⟩ = R.ok S ∧ WDenotes p e S (k • B) := by
    intro P B k hP hB hk
    have := C26_integer p e h.curve h.complete h.order_bits hr1 prof P B hP hB k (Or.inl hk)
    rwa [Weierstrass.Curve.newScalar, scalar_new_eq e.r hr1, R.ok_bind] at this
  have round : ∀ P B, WDenotes p e P B → B ≠ 0 → ∀ c, ∃ bs Q, P.encode c = R.ok bs ∧ e.decode bs = R.ok (.ok Q) ∧ WDenotes p e Q B := by
    intro P B hP hB c
    obtain ⟨bs, Q, h1, -, h3, h4, -⟩ := C28_roundtrip_partial p e h.curve hs P B hP hB c
    exact ⟨bs, Q, h1, h3, h4⟩
  obtain ⟨i, ei, hi⟩ := scalar_inv_new hrp hr2 k hk
  have hi0 : ¬ (e.r : ℤ) ∣ i := fun hd => by
    have h1 : (e.r : ℤ) ∣ 1 := by
      have := (hd.mul_right k).sub hi
      rwa [sub_sub_cancel] at this
    exact hrp.one_lt.ne' (by exact_mod_cast Int.eq_one_of_dvd_one (by omega) h1)
  have hks := not_dvd_mul hrp hs' hk
  obtain ⟨S1, e1, d1⟩ := key P A k hP hA hk
  obtain ⟨w, Q1, ew, eQ1, dQ1⟩ := round S1 _ d1 (smul_ne hord hk) c
  obtain ⟨S2, e2, d2⟩ := key Q1 _ s dQ1 (hkill k) hs'
  rw [smul_smul] at d2
  obtain ⟨w', Q2, ew', eQ2, dQ2⟩ := round S2 _ d2 (smul_ne hord hks) c
  obtain ⟨T, eT, hT⟩ := key Q2 _ i dQ2 (hkill _) hi0
  rw [smul_smul, zsmul_congr hA (b := s) (by
    have e : i * (s * k) - s = s * (i * k - 1) := by ring
    rw [e]; exact hi.mul_left s)] at hT
  obtain ⟨SC, eC, dC⟩ := key P A s hP hA hs'
  obtain ⟨bs, -, hbs, -, -⟩ := round SC _ dC (smul_ne hord hs') c'
  have hTe : T.encode c' = R.ok bs := by
    rw [← hbs]; exact (C30_encode p e h.curve c' T SC _ _ hT dC).1 rfl
  refine ⟨bs, ?_, ?_⟩
  · simp only [wBlind, unwrap, Weierstrass.Curve.newScalar, scalar_new_eq e.r hr1, R.ok_bind, e1, ew, eQ1, R.bind, e2, ew', eQ2, ei, eT, hTe]
  · simp only [Weierstrass.Curve.newScalar, scalar_new_eq e.r hr1, R.ok_bind, eC, hbs]

/-- C86, Weierstrass: the blinded point says nothing about the input. For any two nonzero multiples `G * n` and `G * n'` of the generator, every
blinding of the first is a blinding of the second, for exactly one blind modulo the order. -/
theorem _root_.Redox.Props.C86_weierstrass_hiding (e : Weierstrass.Curve) (h : WValid p e) (prof : Profile) (n n' k : ℤ)
    (hn : ¬ (e.getOrder : ℤ) ∣ n) (hn' : ¬ (e.getOrder : ℤ) ∣ n') (hk : ¬ (e.getOrder : ℤ) ∣ k) :
    ∃ k' : ℤ, ¬ (e.getOrder : ℤ) ∣ k' ∧ ∀ l : ℤ, ¬ (e.getOrder : ℤ) ∣ l →
      (do let g ← e.getGenerator
          let P ← g.mul prof (← e.newScalar n)
          let P' ← g.mul prof (← e.newScalar n')
          (← P.mul prof (← e.newScalar k)).eq (← P'.mul prof (← e.newScalar l))) = R.ok (decide ((e.getOrder : ℤ) ∣ l - k')) := by
  obtain ⟨G, A, hG, hd, hA⟩ := h.generator
  have hrp := h.order_prime
  simp only [Weierstrass.Curve.getOrder] at hA hn hn' hk hrp ⊢
  have hr1 : 1 ≤ e.r := hrp.one_le
  have hkill : ∀ k : ℤ, e.r • (k • A) = 0 := killed_smul (by rw [← hA, addOrderOf_nsmul_eq_zero])
  have key : ∀ P B k, WDenotes p e P B → e.r • B = 0 → ¬ (e.r : ℤ) ∣ k →
      ∃ S, P.mul prof ⟨k % e.r, e.r⟩ = R.ok S ∧ WDenotes p e S (k • B) := by
    intro P B k hP hB hk
    have := C26_integer p e h.curve h.complete h.order_bits hr1 prof P B hP hB k (Or.inl hk)
    rwa [Weierstrass.Curve.newScalar, scalar_new_eq e.r hr1, R.ok_bind] at this
  have hA0 : e.r • A = 0 := by have := hkill 1; rwa [one_smul] at this
  obtain ⟨i, hi⟩ : ∃ i : ℤ, (e.r : ℤ) ∣ i * n' - 1 := by
    obtain ⟨u, v, huv⟩ := (Nat.prime_iff_prime_int.1 hrp).irreducible.coprime_iff_not_dvd.2 hn'
    exact ⟨v, -u, by linarith⟩
  have hnk := not_dvd_mul hrp hk hn
  have hk' : ¬ (e.r : ℤ) ∣ k * n * i := fun hd => hnk (by
    have h1 : k * n = k * n * i * n' - k * n * (i * n' - 1) := by ring
    rw [h1]; exact (hd.mul_right n').sub (hi.mul_left _))
  refine ⟨k * n * i, hk', fun l hl => ?_⟩
  obtain ⟨P, eP, dP⟩ := key G A n hd hA0 hn
  obtain ⟨P', eP', dP'⟩ := key G A n' hd hA0 hn'
  obtain ⟨S, eS, dS⟩ := key P _ k dP (hkill n) hk
  obtain ⟨T, eT, dT⟩ := key P' _ l dP' (hkill n') hl
  rw [smul_smul] at dS dT
  simp only [hG, Weierstrass.Curve.newScalar, scalar_new_eq e.r hr1, R.ok_bind, eP, eP', eS, eT, C27_eq p e _ _ _ _ dS dT, Inst.smul_eq_iff hA,
    R.ok.injEq]
  refine decide_eq_decide.2 ⟨?_, ?_⟩
  · intro hd
    have h1 : (e.r : ℤ) ∣ (l - k * n * i) * n' := by
      have h2 : (l - k * n * i) * n' = -(k * n - l * n') - k * n * (i * n' - 1) := by ring
      rw [h2]; exact (dvd_neg.2 hd).sub (hi.mul_left _)
    exact (Int.Prime.dvd_mul' hrp h1).resolve_right hn'
  · intro hd
    have h2 : k * n - l * n' = -((l - k * n * i) * n') - k * n * (i * n' - 1) := by ring
    rw [h2]; exact (dvd_neg.2 (hd.mul_right n')).sub (hi.mul_left _)

/-- The check of a proof that `X` and `Z` are the same multiple of the generator and of `P`: commitments `K`, `L`, challenge `m`, response `s`. -/
def wDleq (prof : Profile) (e : Weierstrass.Curve) (P X Z K L : Weierstrass.Point) (m s : ℤ) : R Bool := do
  let g ← e.getGenerator
  let sm ← e.newScalar m
  let ss ← e.newScalar s
  let b1 ← (← g.mul prof ss).eq (← K.add (← X.mul prof sm))
  let b2 ← (← P.mul prof ss).eq (← L.add (← Z.mul prof sm))
  return b1 && b2

/-- C87, Weierstrass: for keys `X = G * x`, `Z = P * y` and commitments `K = G * k`, `L = P * l`, the check accepts exactly the responses that are
congruent both to `k + m x` and to `l + m y`; nothing panics (release profile, or no scalar is zero). -/
theorem _root_.Redox.Props.C87_weierstrass (e : Weierstrass.Curve) (h : WValid p e) (prof : Profile) (P : Weierstrass.Point) (A : (wGroup p e).Point)
    (hP : WDenotes p e P A) (hA : e.getOrder • A = 0) (hA0 : A ≠ 0) (x y k l m s : ℤ)
    (h0 : (∀ n ∈ [x, y, k, l, m, s], ¬ (e.getOrder : ℤ) ∣ n) ∨ prof = .release) :
    (do let g ← e.getGenerator
        let X ← g.mul prof (← e.newScalar x)
        let K ← g.mul prof (← e.newScalar k)
        let Z ← P.mul prof (← e.newScalar y)
        let L ← P.mul prof (← e.newScalar l)
        wDleq prof e P X Z K L m s) =
      R.ok (decide ((e.getOrder : ℤ) ∣ s - (k + m * x) ∧ (e.getOrder : ℤ) ∣ s - (l + m * y))) := by
  obtain ⟨G, B, hG, hd, hB⟩ := h.generator
  have hrp := h.order_prime
  simp only [Weierstrass.Curve.getOrder] at h0 hA hB hrp ⊢
  have hr1 : 1 ≤ e.r := hrp.one_le
  have hord := order_of_killed hrp hA hA0
  have hkill : ∀ k : ℤ, e.r • (k • A) = 0 := killed_smul hA
  have hkillB : ∀ k : ℤ, e.r • (k • B) = 0 := killed_smul (by rw [← hB, addOrderOf_nsmul_eq_zero])
  have key : ∀ P B k, WDenotes p e P B → e.r • B = 0 → (¬ (e.r : ℤ) ∣ k ∨ prof = .release) →
      ∃ S, P.mul prof ⟨k % e.r, e.r⟩ = R.ok S ∧ WDenotes p e S (k • B) := by
    intro P B k hP hB hk
    have := C26_integer p e h.curve h.complete h.order_bits hr1 prof P B hP hB k hk
    rwa [Weierstrass.Curve.newScalar, scalar_new_eq e.r hr1, R.ok_bind] at this
  have hB0 : e.r • B = 0 := by have := hkillB 1; rwa [one_smul] at this
  have hn : ∀ n ∈ [x, y, k, l, m, s], ¬ (e.r : ℤ) ∣ n ∨ prof = .release := fun n hn => h0.imp (fun h => h n hn) id
  obtain ⟨X, eX, dX⟩ := key G B x hd hB0 (hn _ (by simp))
  obtain ⟨K, eK, dK⟩ := key G B k hd hB0 (hn _ (by simp))
  obtain ⟨S, eS, dS⟩ := key G B s hd hB0 (hn _ (by simp))
  obtain ⟨M, eM, dM⟩ := key X _ m dX (hkillB x) (hn _ (by simp))
  obtain ⟨V, eV, dV⟩ := (C23_group_law p e h.curve h.complete K M _ _ dK dM).1
  obtain ⟨Z, eZ, dZ⟩ := key P A y hP hA (hn _ (by simp))
  obtain ⟨L, eL, dL⟩ := key P A l hP hA (hn _ (by simp))
  obtain ⟨S', eS', dS'⟩ := key P A s hP hA (hn _ (by simp))
  obtain ⟨M', eM', dM'⟩ := key Z _ m dZ (hkill y) (hn _ (by simp))
  obtain ⟨V', eV', dV'⟩ := (C23_group_law p e h.curve h.complete L M' _ _ dL dM').1
  rw [smul_smul, ← add_zsmul] at dV dV'
  simp only [wDleq, hG, Weierstrass.Curve.newScalar, scalar_new_eq e.r hr1, R.ok_bind, eX, eK, eS, eM, eV, eZ, eL, eS', eM', eV',
    C27_eq p e _ _ _ _ dS dV, C27_eq p e _ _ _ _ dS' dV', Inst.smul_eq_iff hB, Inst.smul_eq_iff hord, R.pure_eq]
  exact congrArg R.ok (Bool.decide_and _ _).symm

/-- C87, Weierstrass, soundness: if for the same keys and commitments responses to two different challenges are accepted, the two keys have the
same discrete logarithm. -/
theorem _root_.Redox.Props.C87_weierstrass_sound (e : Weierstrass.Curve) (h : WValid p e) (prof : Profile) (P : Weierstrass.Point) (A : (wGroup p e).Point)
    (hP : WDenotes p e P A) (hA : e.getOrder • A = 0) (hA0 : A ≠ 0) (x y k l m s m' s' : ℤ)
    (h0 : (∀ n ∈ [x, y, k, l, m, s, m', s'], ¬ (e.getOrder : ℤ) ∣ n) ∨ prof = .release) (hm : ¬ (e.getOrder : ℤ) ∣ m - m')
    (hacc : (do let g ← e.getGenerator
                let X ← g.mul prof (← e.newScalar x)
                let K ← g.mul prof (← e.newScalar k)
                let Z ← P.mul prof (← e.newScalar y)
                let L ← P.mul prof (← e.newScalar l)
                return ((← wDleq prof e P X Z K L m s) && (← wDleq prof e P X Z K L m' s'))) = R.ok true) :
    (e.getOrder : ℤ) ∣ x - y := by
  have h1 := Redox.Props.C87_weierstrass p e h prof P A hP hA hA0 x y k l m s (h0.imp (fun h n hn => h n (by simp at hn ⊢; tauto)) id)
  have h2 := Redox.Props.C87_weierstrass p e h prof P A hP hA hA0 x y k l m' s' (h0.imp (fun h n hn => h n (by simp at hn ⊢; tauto)) id)
  obtain ⟨g, hg, hacc⟩ := R.bind_eq_ok.1 hacc
  obtain ⟨sx, hsx, hacc⟩ := R.bind_eq_ok.1 hacc
  obtain ⟨X, hX, hacc⟩ := R.bind_eq_ok.1 hacc
  obtain ⟨sk, hsk, hacc⟩ := R.bind_eq_ok.1 hacc
  obtain ⟨K, hK, hacc⟩ := R.bind_eq_ok.1 hacc
  obtain ⟨sy, hsy, hacc⟩ := R.bind_eq_ok.1 hacc
  obtain ⟨Z, hZ, hacc⟩ := R.bind_eq_ok.1 hacc
  obtain ⟨sl, hsl, hacc⟩ := R.bind_eq_ok.1 hacc
  obtain ⟨L, hL, hacc⟩ := R.bind_eq_ok.1 hacc
  simp only [hg, hsx, hX, hsk, hK, hsy, hZ, hsl, hL, R.ok_bind] at h1 h2
  simp only [h1, h2, R.ok_bind, R.pure_eq, R.ok.injEq, Bool.and_eq_true, decide_eq_true_eq] at hacc
  exact special_sound h.order_prime hacc.1.1 hacc.1.2 hacc.2.1 hacc.2.2 hm

/-- C87, Weierstrass, completeness: the response computed with the scalar operations is accepted. -/
theorem _root_.Redox.Props.C87_weierstrass_complete (e : Weierstrass.Curve) (h : WValid p e) (prof : Profile) (P : Weierstrass.Point) (A : (wGroup p e).Point)
    (hP : WDenotes p e P A) (hA : e.getOrder • A = 0) (hA0 : A ≠ 0) (x k m : ℤ)
    (h0 : (∀ n ∈ [x, k, m, k + m * x], ¬ (e.getOrder : ℤ) ∣ n) ∨ prof = .release) :
    (do let g ← e.getGenerator
        let sx ← e.newScalar x
        let sk ← e.newScalar k
        let s ← sk.add (← (← e.newScalar m).mul sx)
        wDleq prof e P (← g.mul prof sx) (← P.mul prof sx) (← g.mul prof sk) (← P.mul prof sk) m s.k) = R.ok true := by
  have hr1 : 1 ≤ e.r := h.order_prime.one_le
  have h1 := Redox.Props.C87_weierstrass p e h prof P A hP hA hA0 x x k k m ((k + m * x) % e.r) (h0.imp (fun h n hn => by
    simp only [List.mem_cons, List.not_mem_nil, or_false] at hn
    rcases hn with rfl | rfl | rfl | rfl | rfl | rfl
    · exact h _ (by simp)
    · exact h _ (by simp)
    · exact h _ (by simp)
    · exact h _ (by simp)
    · exact h _ (by simp)
    · intro hd
      exact h (k + m * x) (by simp) (Int.dvd_of_emod_eq_zero (by
        have := Int.emod_eq_zero_of_dvd hd
        rwa [Weierstrass.Curve.getOrder, Int.emod_emod_of_dvd _ (dvd_refl _)] at this))) id)
  have hc : (e.getOrder : ℤ) ∣ (k + m * x) % e.r - (k + m * x) := by
    rw [Weierstrass.Curve.getOrder]
    exact Int.ModEq.dvd (Int.mod_modEq _ _).symm
  rw [decide_eq_true ⟨hc, hc⟩] at h1
  obtain ⟨g, hg, h1⟩ := R.bind_eq_ok.1 h1
  simp only [Weierstrass.Curve.newScalar, scalar_new_eq e.r hr1, R.ok_bind, scalar_mul_new hr1, scalar_add_new hr1, hg] at h1 ⊢
  obtain ⟨X, hX, h1⟩ := R.bind_eq_ok.1 h1
  obtain ⟨K, hK, h1⟩ := R.bind_eq_ok.1 h1
  obtain ⟨Z, hZ, h1⟩ := R.bind_eq_ok.1 h1
  obtain ⟨L, hL, h1⟩ := R.bind_eq_ok.1 h1
  simp only [hX, hK, hZ, hL, R.ok_bind]
  exact h1

/-- Blinded evaluation on a Montgomery curve. The client multiplies the point by the blind `k` and sends the encoding; the server decodes, multiplies
by its key `s` and sends the encoding back; the client decodes, multiplies by `1 / k` and encodes the result. -/
def mBlind (prof : Profile) (e : Montgomery.Curve) (P : Montgomery.Point) (k s : ℤ) (c c' : Bool) : R (List Byte) := do
  let sk ← e.newScalar k
  let ss ← e.newScalar s
  let w ← (← P.mul prof sk).encode c
  let w' ← (← (← unwrap (e.decode w)).mul prof ss).encode c
  (← (← unwrap (e.decode w')).mul prof (← Scalar.u32Div 1 sk)).encode c'

/-- C86, Montgomery: for every point other than the identity that the order kills, every blind and every key, nothing panics, and the bytes the
client gets are those of `P * s`, whatever the blind. -/
theorem _root_.Redox.Props.C86_montgomery (e : Montgomery.Curve) (h : MValid p e) (hr2 : e.getOrder ≠ 2) (hs : p % 4 = 3 ∨ p % 8 = 5)
    (prof : Profile) (P : Montgomery.Point) (A : (mGroup p e).Point) (hP : MDenotes p e P A) (hA : e.getOrder • A = 0) (hA0 : A ≠ 0)
    (k s : ℤ) (hk : ¬ (e.getOrder : ℤ) ∣ k) (hs' : ¬ (e.getOrder : ℤ) ∣ s) (c c' : Bool) :
    ∃ bs, mBlind prof e P k s c c' = R.ok bs ∧ (do (← P.mul prof (← e.newScalar s)).encode c') = R.ok bs := by
  have hrp := h.order_prime
  simp only [Montgomery.Curve.getOrder] at hA hk hs' hr2 hrp
  have hr1 : 1 ≤ e.r := hrp.one_le
  have hord := order_of_killed hrp hA hA0
  have hkill : ∀ k : ℤ, e.r • (k • A) = 0 := killed_smul hA
  have key : ∀ P B k, MDenotes p e P B → e.r • B = 0 → ¬ (e.r : ℤ) ∣ k →
      ∃ S, P.mul prof ⟨k % e.r, e.r⟩ = R.ok S ∧ MDenotes p e S (k • B) := by
    intro P B k hP hB hk
    have := C33_integer_partial p e h.curve h.b_one h.complete h.order_bits hr1 prof P B hP hB k (Or.inl hk)
    rwa [Montgomery.Curve.newScalar, scalar_new_eq e.r hr1, R.ok_bind] at this
  have round : ∀ P B, MDenotes p e P B → B ≠ 0 → ∀ c, ∃ bs Q, P.encode c = R.ok bs ∧ e.decode bs = R.ok (.ok Q) ∧ MDenotes p e Q B := by
    intro P B hP hB c
    obtain ⟨bs, Q, h1, -, h3, h4, -⟩ := C34_roundtrip_partial p e h.curve h.b_one hs P B hP hB c
    exact ⟨bs, Q, h1, h3, h4⟩
  obtain ⟨i, ei, hi⟩ := scalar_inv_new hrp hr2 k hk
  have hi0 : ¬ (e.r : ℤ) ∣ i := fun hd => by
    have h1 : (e.r : ℤ) ∣ 1 := by
      have := (hd.mul_right k).sub hi
      rwa [sub_sub_cancel] at this
    exact hrp.one_lt.ne' (by exact_mod_cast Int.eq_one_of_dvd_one (by omega) h1)
  have hks := not_dvd_mul hrp hs' hk
  obtain ⟨S1, e1, d1⟩ := key P A k hP hA hk
  obtain ⟨w, Q1, ew, eQ1, dQ1⟩ := round S1 _ d1 (smul_ne hord hk) c
  obtain ⟨S2, e2, d2⟩ := key Q1 _ s dQ1 (hkill k) hs'
  rw [smul_smul] at d2
  obtain ⟨w', Q2, ew', eQ2, dQ2⟩ := round S2 _ d2 (smul_ne hord hks) c
  obtain ⟨T, eT, hT⟩ := key Q2 _ i dQ2 (hkill _) hi0
  rw [smul_smul, zsmul_congr hA (b := s) (by
    have e : i * (s * k) - s = s * (i * k - 1) := by ring
    rw [e]; exact hi.mul_left s)] at hT
  obtain ⟨SC, eC, dC⟩ := key P A s hP hA hs'
  obtain ⟨bs, -, hbs, -, -⟩ := round SC _ dC (smul_ne hord hs') c'
  have hTe : T.encode c' = R.ok bs := by
    rw [← hbs]; exact (C34_canonical_partial p e h.curve c' T SC _ _ hT dC).1 rfl
  refine ⟨bs, ?_, ?_⟩
  · simp only [mBlind, unwrap, Montgomery.Curve.newScalar, scalar_new_eq e.r hr1, R.ok_bind, e1, ew, eQ1, R.bind, e2, ew', eQ2, ei, eT, hTe]
  · simp only [Montgomery.Curve.newScalar, scalar_new_eq e.r hr1, R.ok_bind, eC, hbs]

/-- C86, Montgomery: the blinded point says nothing about the input. For any two nonzero multiples `G * n` and `G * n'` of the generator, every
blinding of the first is a blinding of the second, for exactly one blind modulo the order. -/
theorem _root_.Redox.Props.C86_montgomery_hiding (e : Montgomery.Curve) (h : MValid p e) (prof : Profile) (n n' k : ℤ)
    (hn : ¬ (e.getOrder : ℤ) ∣ n) (hn' : ¬ (e.getOrder : ℤ) ∣ n') (hk : ¬ (e.getOrder : ℤ) ∣ k) :
    ∃ k' : ℤ, ¬ (e.getOrder : ℤ) ∣ k' ∧ ∀ l : ℤ, ¬ (e.getOrder : ℤ) ∣ l →
      (do let g ← e.getGenerator
          let P ← g.mul prof (← e.newScalar n)
          let P' ← g.mul prof (← e.newScalar n')
          (← P.mul prof (← e.newScalar k)).eq (← P'.mul prof (← e.newScalar l))) = R.ok (decide ((e.getOrder : ℤ) ∣ l - k')) := by
  obtain ⟨G, A, hG, hd, hA⟩ := h.generator
  have hrp := h.order_prime
  simp only [Montgomery.Curve.getOrder] at hA hn hn' hk hrp ⊢
  have hr1 : 1 ≤ e.r := hrp.one_le
  have hkill : ∀ k : ℤ, e.r • (k • A) = 0 := killed_smul (by rw [← hA, addOrderOf_nsmul_eq_zero])
  have key : ∀ P B k, MDenotes p e P B → e.r • B = 0 → ¬ (e.r : ℤ) ∣ k →
      ∃ S, P.mul prof ⟨k % e.r, e.r⟩ = R.ok S ∧ MDenotes p e S (k • B) := by
    intro P B k hP hB hk
    have := C33_integer_partial p e h.curve h.b_one h.complete h.order_bits hr1 prof P B hP hB k (Or.inl hk)
    rwa [Montgomery.Curve.newScalar, scalar_new_eq e.r hr1, R.ok_bind] at this
  have hA0 : e.r • A = 0 := by have := hkill 1; rwa [one_smul] at this
  obtain ⟨i, hi⟩ : ∃ i : ℤ, (e.r : ℤ) ∣ i * n' - 1 := by
    obtain ⟨u, v, huv⟩ := (Nat.prime_iff_prime_int.1 hrp).irreducible.coprime_iff_not_dvd.2 hn'
    exact ⟨v, -u, by linarith⟩
  have hnk := not_dvd_mul hrp hk hn
  have hk' : ¬ (e.r : ℤ) ∣ k * n * i := fun hd => hnk (by
    have h1 : k * n = k * n * i * n' - k * n * (i * n' - 1) := by ring
    rw [h1]; exact (hd.mul_right n').sub (hi.mul_left _))
  refine ⟨k * n * i, hk', fun l hl => ?_⟩
  obtain ⟨P, eP, dP⟩ := key G A n hd hA0 hn
  obtain ⟨P', eP', dP'⟩ := key G A n' hd hA0 hn'
  obtain ⟨S, eS, dS⟩ := key P _ k dP (hkill n) hk
  obtain ⟨T, eT, dT⟩ := key P' _ l dP' (hkill n') hl
  rw [smul_smul] at dS dT
  simp only [hG, Montgomery.Curve.newScalar, scalar_new_eq e.r hr1, R.ok_bind, eP, eP', eS, eT, (C32_eq p e _ _ _ _ dS dT).1, Inst.smul_eq_iff hA,
    R.ok.injEq]
  refine decide_eq_decide.2 ⟨?_, ?_⟩
  · intro hd
    have h1 : (e.r : ℤ) ∣ (l - k * n * i) * n' := by
      have h2 : (l - k * n * i) * n' = -(k * n - l * n') - k * n * (i * n' - 1) := by ring
      rw [h2]; exact (dvd_neg.2 hd).sub (hi.mul_left _)
    exact (Int.Prime.dvd_mul' hrp h1).resolve_right hn'
  · intro hd
    have h2 : k * n - l * n' = -((l - k * n * i) * n') - k * n * (i * n' - 1) := by ring
    rw [h2]; exact (dvd_neg.2 (hd.mul_right n')).sub (hi.mul_left _)

/-- The check of a proof that `X` and `Z` are the same multiple of the generator and of `P`: commitments `K`, `L`, challenge `m`, response `s`. -/
def mDleq (prof : Profile) (e : Montgomery.Curve) (P X Z K L : Montgomery.Point) (m s : ℤ) : R Bool := do
  let g ← e.getGenerator
  let sm ← e.newScalar m
  let ss ← e.newScalar s
  let b1 ← (← g.mul prof ss).eq (← K.add (← X.mul prof sm))
  let b2 ← (← P.mul prof ss).eq (← L.add (← Z.mul prof sm))
  return b1 && b2

/-- C87, Montgomery: for keys `X = G * x`, `Z = P * y` and commitments `K = G * k`, `L = P * l`, the check accepts exactly the responses that are
congruent both to `k + m x` and to `l + m y`; nothing panics (release profile, or no scalar is zero). -/
theorem _root_.Redox.Props.C87_montgomery (e : Montgomery.Curve) (h : MValid p e) (prof : Profile) (P : Montgomery.Point) (A : (mGroup p e).Point)
    (hP : MDenotes p e P A) (hA : e.getOrder • A = 0) (hA0 : A ≠ 0) (x y k l m s : ℤ)
    (h0 : (∀ n ∈ [x, y, k, l, m, s], ¬ (e.getOrder : ℤ) ∣ n) ∨ prof = .release) :
    (do let g ← e.getGenerator
        let X ← g.mul prof (← e.newScalar x)
        let K ← g.mul prof (← e.newScalar k)
        let Z ← P.mul prof (← e.newScalar y)
        let L ← P.mul prof (← e.newScalar l)
        mDleq prof e P X Z K L m s) =
      R.ok (decide ((e.getOrder : ℤ) ∣ s - (k + m * x) ∧ (e.getOrder : ℤ) ∣ s - (l + m * y))) := by
  obtain ⟨G, B, hG, hd, hB⟩ := h.generator
  have hrp := h.order_prime
  simp only [Montgomery.Curve.getOrder] at h0 hA hB hrp ⊢
  have hr1 : 1 ≤ e.r := hrp.one_le
  have hord := order_of_killed hrp hA hA0
  have hkill : ∀ k : ℤ, e.r • (k • A) = 0 := killed_smul hA
  have hkillB : ∀ k : ℤ, e.r • (k • B) = 0 := killed_smul (by rw [← hB, addOrderOf_nsmul_eq_zero])
  have key : ∀ P B k, MDenotes p e P B → e.r • B = 0 → (¬ (e.r : ℤ) ∣ k ∨ prof = .release) →
      ∃ S, P.mul prof ⟨k % e.r, e.r⟩ = R.ok S ∧ MDenotes p e S (k • B) := by
    intro P B k hP hB hk
    have := C33_integer_partial p e h.curve h.b_one h.complete h.order_bits hr1 prof P B hP hB k hk
    rwa [Montgomery.Curve.newScalar, scalar_new_eq e.r hr1, R.ok_bind] at this
  have hB0 : e.r • B = 0 := by have := hkillB 1; rwa [one_smul] at this
  have hn : ∀ n ∈ [x, y, k, l, m, s], ¬ (e.r : ℤ) ∣ n ∨ prof = .release := fun n hn => h0.imp (fun h => h n hn) id
  obtain ⟨X, eX, dX⟩ := key G B x hd hB0 (hn _ (by simp))
  obtain ⟨K, eK, dK⟩ := key G B k hd hB0 (hn _ (by simp))
  obtain ⟨S, eS, dS⟩ := key G B s hd hB0 (hn _ (by simp))
  obtain ⟨M, eM, dM⟩ := key X _ m dX (hkillB x) (hn _ (by simp))
  obtain ⟨V, eV, dV⟩ := (C32_group_law_partial p e h.curve h.b_one h.complete K M _ _ dK dM).1
  obtain ⟨Z, eZ, dZ⟩ := key P A y hP hA (hn _ (by simp))
  obtain ⟨L, eL, dL⟩ := key P A l hP hA (hn _ (by simp))
  obtain ⟨S', eS', dS'⟩ := key P A s hP hA (hn _ (by simp))
  obtain ⟨M', eM', dM'⟩ := key Z _ m dZ (hkill y) (hn _ (by simp))
  obtain ⟨V', eV', dV'⟩ := (C32_group_law_partial p e h.curve h.b_one h.complete L M' _ _ dL dM').1
  rw [smul_smul, ← add_zsmul] at dV dV'
  simp only [mDleq, hG, Montgomery.Curve.newScalar, scalar_new_eq e.r hr1, R.ok_bind, eX, eK, eS, eM, eV, eZ, eL, eS', eM', eV',
    (C32_eq p e _ _ _ _ dS dV).1, (C32_eq p e _ _ _ _ dS' dV').1, Inst.smul_eq_iff hB, Inst.smul_eq_iff hord, R.pure_eq]
  exact congrArg R.ok (Bool.decide_and _ _).symm

/-- C87, Montgomery, soundness: if for the same keys and commitments responses to two different challenges are accepted, the two keys have the
same discrete logarithm. -/
theorem _root_.Redox.Props.C87_montgomery_sound (e : Montgomery.Curve) (h : MValid p e) (prof : Profile) (P : Montgomery.Point) (A : (mGroup p e).Point)
    (hP : MDenotes p e P A) (hA : e.getOrder • A = 0) (hA0 : A ≠ 0) (x y k l m s m' s' : ℤ)
    (h0 : (∀ n ∈ [x, y, k, l, m, s, m', s'], ¬ (e.getOrder : ℤ) ∣ n) ∨ prof = .release) (hm : ¬ (e.getOrder : ℤ) ∣ m - m')
    (hacc : (do let g ← e.getGenerator
                let X ← g.mul prof (← e.newScalar x)
                let K ← g.mul prof (← e.newScalar k)
                let Z ← P.mul prof (← e.newScalar y)
                let L ← P.mul prof (← e.newScalar l)
                return ((← mDleq prof e P X Z K L m s) && (← mDleq prof e P X Z K L m' s'))) = R.ok true) :
    (e.getOrder : ℤ) ∣ x - y := by
  have h1 := Redox.Props.C87_montgomery p e h prof P A hP hA hA0 x y k l m s (h0.imp (fun h n hn => h n (by simp at hn ⊢; tauto)) id)
  have h2 := Redox.Props.C87_montgomery p e h prof P A hP hA hA0 x y k l m' s' (h0.imp (fun h n hn => h n (by simp at hn ⊢; tauto)) id)
  obtain ⟨g, hg, hacc⟩ := R.bind_eq_ok.1 hacc
  obtain ⟨sx, hsx, hacc⟩ := R.bind_eq_ok.1 hacc
  obtain ⟨X, hX, hacc⟩ := R.bind_eq_ok.1 hacc
  obtain ⟨sk, hsk, hacc⟩ := R.bind_eq_ok.1 hacc
  obtain ⟨K, hK, hacc⟩ := R.bind_eq_ok.1 hacc
  obtain ⟨sy, hsy, hacc⟩ := R.bind_eq_ok.1 hacc
  obtain ⟨Z, hZ, hacc⟩ := R.bind_eq_ok.1 hacc
  obtain ⟨sl, hsl, hacc⟩ := R.bind_eq_ok.1 hacc
  obtain ⟨L, hL, hacc⟩ := R.bind_eq_ok.1 hacc
  simp only [hg, hsx, hX, hsk, hK, hsy, hZ, hsl, hL, R.ok_bind] at h1 h2
  simp only [h1, h2, R.ok_bind, R.pure_eq, R.ok.injEq, Bool.and_eq_true, decide_eq_true_eq] at hacc
  exact special_sound h.order_prime hacc.1.1 hacc.1.2 hacc.2.1 hacc.2.2 hm

/-- C87, Montgomery, completeness: the response computed with the scalar operations is accepted. -/
theorem _root_.Redox.Props.C87_montgomery_complete (e : Montgomery.Curve) (h : MValid p e) (prof : Profile) (P : Montgomery.Point) (A : (mGroup p e).Point)
    (hP : MDenotes p e P A) (hA : e.getOrder • A = 0) (hA0 : A ≠ 0) (x k m : ℤ)
    (h0 : (∀ n ∈ [x, k, m, k + m * x], ¬ (e.getOrder : ℤ) ∣ n) ∨ prof = .release) :
    (do let g ← e.getGenerator
        let sx ← e.newScalar x
        let sk ← e.newScalar k
        let s ← sk.add (← (← e.newScalar m).mul sx)
        mDleq prof e P (← g.mul prof sx) (← P.mul prof sx) (← g.mul prof sk) (← P.mul prof sk) m s.k) = R.ok true := by
  have hr1 : 1 ≤ e.r := h.order_prime.one_le
  have h1 := Redox.Props.C87_montgomery p e h prof P A hP hA hA0 x x k k m ((k + m * x) % e.r) (h0.imp (fun h n hn => by
    simp only [List.mem_cons, List.not_mem_nil, or_false] at hn
    rcases hn with rfl | rfl | rfl | rfl | rfl | rfl
    · exact h _ (by simp)
    · exact h _ (by simp)
    · exact h _ (by simp)
    · exact h _ (by simp)
    · exact h _ (by simp)
    · intro hd
      exact h (k + m * x) (by simp) (Int.dvd_of_emod_eq_zero (by
        have := Int.emod_eq_zero_of_dvd hd
        rwa [Montgomery.Curve.getOrder, Int.emod_emod_of_dvd _ (dvd_refl _)] at this))) id)
  have hc : (e.getOrder : ℤ) ∣ (k + m * x) % e.r - (k + m * x) := by
    rw [Montgomery.Curve.getOrder]
    exact Int.ModEq.dvd (Int.mod_modEq _ _).symm
  rw [decide_eq_true ⟨hc, hc⟩] at h1
  obtain ⟨g, hg, h1⟩ := R.bind_eq_ok.1 h1
  simp only [Montgomery.Curve.newScalar, scalar_new_eq e.r hr1, R.ok_bind, scalar_mul_new hr1, scalar_add_new hr1, hg] at h1 ⊢
  obtain ⟨X, hX, h1⟩ := R.bind_eq_ok.1 h1
  obtain ⟨K, hK, h1⟩ := R.bind_eq_ok.1 h1
  obtain ⟨Z, hZ, h1⟩ := R.bind_eq_ok.1 h1
  obtain ⟨L, hL, h1⟩ := R.bind_eq_ok.1 h1
  simp only [hX, hK, hZ, hL, R.ok_bind]
  exact h1

/-- Blinded evaluation on a Edwards curve. The client multiplies the point by the blind `k` and sends the encoding; the server decodes, multiplies
by its key `s` and sends the encoding back; the client decodes, multiplies by `1 / k` and encodes the result. -/
def eBlind (prof : Profile) (e : Edwards.Curve) (P : Edwards.Point) (k s : ℤ) (c c' : Bool) : R (List Byte) := do
  let sk ← e.newScalar k
  let ss ← e.newScalar s
  let w ← (← P.mul prof sk).encode c
  let w' ← (← (← unwrap (e.decode w)).mul prof ss).encode c
  (← (← unwrap (e.decode w')).mul prof (← Scalar.u32Div 1 sk)).encode c'

/-- C86, Edwards: for every point other than the identity that the order kills, every blind and every key, nothing panics, and the bytes the
client gets are those of `P * s`, whatever the blind. -/
theorem _root_.Redox.Props.C86_edwards (e : Edwards.Curve) (h : EValid p e) [ECurve p e] (hr2 : e.getOrder ≠ 2) (hs : p % 4 = 3 ∨ p % 8 = 5)
    (prof : Profile) (P : Edwards.Point) (A : eGroup p e) (hP : EDenotes p e P A) (hA : e.getOrder • A = 0) (hA0 : A ≠ 0)
    (k s : ℤ) (hk : ¬ (e.getOrder : ℤ) ∣ k) (hs' : ¬ (e.getOrder : ℤ) ∣ s) (c c' : Bool) :
    ∃ bs, eBlind prof e P k s c c' = R.ok bs ∧ (do (← P.mul prof (← e.newScalar s)).encode c') = R.ok bs := by
  have hrp := h.order_prime
  simp only [Edwards.Curve.getOrder] at hA hk hs' hr2 hrp
  have hr1 : 1 ≤ e.r := hrp.one_le
  have hord := order_of_killed hrp hA hA0
  have hkill : ∀ k : ℤ, e.r • (k • A) = 0 := killed_smul hA
  have key : ∀ P B k, EDenotes p e P B → e.r • B = 0 → ¬ (e.r : ℤ) ∣ k →
      ∃ S, P.mul prof ⟨k % e.r, e.r⟩ = R.ok S ∧ EDenotes p e S (k • B) := by
    intro P B k hP hB hk
    have := C37_integer_partial p e h.order_bits hr1 prof P B hP hB k (Or.inl hk)
    rwa [Edwards.Curve.newScalar, scalar_new_eq e.r hr1, R.ok_bind] at this
  have round : ∀ P B, EDenotes p e P B → ∀ c, ∃ bs Q, P.encode c = R.ok bs ∧ e.decode bs = R.ok (.ok Q) ∧ EDenotes p e Q B := by
    intro P B hP c
    obtain ⟨bs, Q, h1, -, -, h3, h4, -⟩ := C39_roundtrip p e hs P B hP c
    exact ⟨bs, Q, h1, h3, h4⟩
  obtain ⟨i, ei, hi⟩ := scalar_inv_new hrp hr2 k hk
  have hi0 : ¬ (e.r : ℤ) ∣ i := fun hd => by
    have h1 : (e.r : ℤ) ∣ 1 := by
      have := (hd.mul_right k).sub hi
      rwa [sub_sub_cancel] at this
    exact hrp.one_lt.ne' (by exact_mod_cast Int.eq_one_of_dvd_one (by omega) h1)
  have hks := not_dvd_mul hrp hs' hk
  obtain ⟨S1, e1, d1⟩ := key P A k hP hA hk
  obtain ⟨w, Q1, ew, eQ1, dQ1⟩ := round S1 _ d1 c
  obtain ⟨S2, e2, d2⟩ := key Q1 _ s dQ1 (hkill k) hs'
  rw [smul_smul] at d2
  obtain ⟨w', Q2, ew', eQ2, dQ2⟩ := round S2 _ d2 c
  obtain ⟨T, eT, hT⟩ := key Q2 _ i dQ2 (hkill _) hi0
  rw [smul_smul, zsmul_congr hA (b := s) (by
    have e : i * (s * k) - s = s * (i * k - 1) := by ring
    rw [e]; exact hi.mul_left s)] at hT
  obtain ⟨SC, eC, dC⟩ := key P A s hP hA hs'
  obtain ⟨bs, -, hbs, -, -⟩ := round SC _ dC c'
  have hTe : T.encode c' = R.ok bs := by
    rw [← hbs]; exact (C39_injective p e hs T SC _ _ hT dC c' c').2 rfl
  refine ⟨bs, ?_, ?_⟩
  · simp only [eBlind, unwrap, Edwards.Curve.newScalar, scalar_new_eq e.r hr1, R.ok_bind, e1, ew, eQ1, R.bind, e2, ew', eQ2, ei, eT, hTe]
  · simp only [Edwards.Curve.newScalar, scalar_new_eq e.r hr1, R.ok_bind, eC, hbs]

/-- C86, Edwards: the blinded point says nothing about the input. For any two nonzero multiples `G * n` and `G * n'` of the generator, every
blinding of the first is a blinding of the second, for exactly one blind modulo the order. -/
theorem _root_.Redox.Props.C86_edwards_hiding (e : Edwards.Curve) (h : EValid p e) (prof : Profile) (n n' k : ℤ)
    (hn : ¬ (e.getOrder : ℤ) ∣ n) (hn' : ¬ (e.getOrder : ℤ) ∣ n') (hk : ¬ (e.getOrder : ℤ) ∣ k) :
    ∃ k' : ℤ, ¬ (e.getOrder : ℤ) ∣ k' ∧ ∀ l : ℤ, ¬ (e.getOrder : ℤ) ∣ l →
      (do let g ← e.getGenerator
          let P ← g.mul prof (← e.newScalar n)
          let P' ← g.mul prof (← e.newScalar n')
          (← P.mul prof (← e.newScalar k)).eq (← P'.mul prof (← e.newScalar l))) = R.ok (decide ((e.getOrder : ℤ) ∣ l - k')) := by
  have := h.curve
  obtain ⟨G, A, hG, hd, hA⟩ := h.generator
  have hrp := h.order_prime
  simp only [Edwards.Curve.getOrder] at hA hn hn' hk hrp ⊢
  have hr1 : 1 ≤ e.r := hrp.one_le
  have hkill : ∀ k : ℤ, e.r • (k • A) = 0 := killed_smul (by rw [← hA, addOrderOf_nsmul_eq_zero])
  have key : ∀ P B k, EDenotes p e P B → e.r • B = 0 → ¬ (e.r : ℤ) ∣ k →
      ∃ S, P.mul prof ⟨k % e.r, e.r⟩ = R.ok S ∧ EDenotes p e S (k • B) := by
    intro P B k hP hB hk
    have := C37_integer_partial p e h.order_bits hr1 prof P B hP hB k (Or.inl hk)
    rwa [Edwards.Curve.newScalar, scalar_new_eq e.r hr1, R.ok_bind] at this
  have hA0 : e.r • A = 0 := by have := hkill 1; rwa [one_smul] at this
  obtain ⟨i, hi⟩ : ∃ i : ℤ, (e.r : ℤ) ∣ i * n' - 1 := by
    obtain ⟨u, v, huv⟩ := (Nat.prime_iff_prime_int.1 hrp).irreducible.coprime_iff_not_dvd.2 hn'
    exact ⟨v, -u, by linarith⟩
  have hnk := not_dvd_mul hrp hk hn
  have hk' : ¬ (e.r : ℤ) ∣ k * n * i := fun hd => hnk (by
    have h1 : k * n = k * n * i * n' - k * n * (i * n' - 1) := by ring
    rw [h1]; exact (hd.mul_right n').sub (hi.mul_left _))
  refine ⟨k * n * i, hk', fun l hl => ?_⟩
  obtain ⟨P, eP, dP⟩ := key G A n hd hA0 hn
  obtain ⟨P', eP', dP'⟩ := key G A n' hd hA0 hn'
  obtain ⟨S, eS, dS⟩ := key P _ k dP (hkill n) hk
  obtain ⟨T, eT, dT⟩ := key P' _ l dP' (hkill n') hl
  rw [smul_smul] at dS dT
  simp only [hG, Edwards.Curve.newScalar, scalar_new_eq e.r hr1, R.ok_bind, eP, eP', eS, eT, C36_eq p e _ _ _ _ dS dT, Inst.smul_eq_iff hA,
    R.ok.injEq]
  refine decide_eq_decide.2 ⟨?_, ?_⟩
  · intro hd
    have h1 : (e.r : ℤ) ∣ (l - k * n * i) * n' := by
      have h2 : (l - k * n * i) * n' = -(k * n - l * n') - k * n * (i * n' - 1) := by ring
      rw [h2]; exact (dvd_neg.2 hd).sub (hi.mul_left _)
    exact (Int.Prime.dvd_mul' hrp h1).resolve_right hn'
  · intro hd
    have h2 : k * n - l * n' = -((l - k * n * i) * n') - k * n * (i * n' - 1) := by ring
    rw [h2]; exact (dvd_neg.2 (hd.mul_right n')).sub (hi.mul_left _)

/-- The check of a proof that `X` and `Z` are the same multiple of the generator and of `P`: commitments `K`, `L`, challenge `m`, response `s`. -/
def eDleq (prof : Profile) (e : Edwards.Curve) (P X Z K L : Edwards.Point) (m s : ℤ) : R Bool := do
  let g ← e.getGenerator
  let sm ← e.newScalar m
  let ss ← e.newScalar s
  let b1 ← (← g.mul prof ss).eq (← K.add (← X.mul prof sm))
  let b2 ← (← P.mul prof ss).eq (← L.add (← Z.mul prof sm))
  return b1 && b2

/-- C87, Edwards: for keys `X = G * x`, `Z = P * y` and commitments `K = G * k`, `L = P * l`, the check accepts exactly the responses that are
congruent both to `k + m x` and to `l + m y`; nothing panics (release profile, or no scalar is zero). -/
theorem _root_.Redox.Props.C87_edwards (e : Edwards.Curve) (h : EValid p e) [ECurve p e] (prof : Profile) (P : Edwards.Point) (A : eGroup p e)
    (hP : EDenotes p e P A) (hA : e.getOrder • A = 0) (hA0 : A ≠ 0) (x y k l m s : ℤ)
    (h0 : (∀ n ∈ [x, y, k, l, m, s], ¬ (e.getOrder : ℤ) ∣ n) ∨ prof = .release) :
    (do let g ← e.getGenerator
        let X ← g.mul prof (← e.newScalar x)
        let K ← g.mul prof (← e.newScalar k)
        let Z ← P.mul prof (← e.newScalar y)
        let L ← P.mul prof (← e.newScalar l)
        eDleq prof e P X Z K L m s) =
      R.ok (decide ((e.getOrder : ℤ) ∣ s - (k + m * x) ∧ (e.getOrder : ℤ) ∣ s - (l + m * y))) := by
  obtain ⟨G, B, hG, hd, hB⟩ := h.generator
  have hrp := h.order_prime
  simp only [Edwards.Curve.getOrder] at h0 hA hB hrp ⊢
  have hr1 : 1 ≤ e.r := hrp.one_le
  have hord := order_of_killed hrp hA hA0
  have hkill : ∀ k : ℤ, e.r • (k • A) = 0 := killed_smul hA
  have hkillB : ∀ k : ℤ, e.r • (k • B) = 0 := killed_smul (by rw [← hB, addOrderOf_nsmul_eq_zero])
  have key : ∀ P B k, EDenotes p e P B → e.r • B = 0 → (¬ (e.r : ℤ) ∣ k ∨ prof = .release) →
      ∃ S, P.mul prof ⟨k % e.r, e.r⟩ = R.ok S ∧ EDenotes p e S (k • B) := by
    intro P B k hP hB hk
    have := C37_integer_partial p e h.order_bits hr1 prof P B hP hB k hk
    rwa [Edwards.Curve.newScalar, scalar_new_eq e.r hr1, R.ok_bind] at this
  have hB0 : e.r • B = 0 := by have := hkillB 1; rwa [one_smul] at this
  have hn : ∀ n ∈ [x, y, k, l, m, s], ¬ (e.r : ℤ) ∣ n ∨ prof = .release := fun n hn => h0.imp (fun h => h n hn) id
  obtain ⟨X, eX, dX⟩ := key G B x hd hB0 (hn _ (by simp))
  obtain ⟨K, eK, dK⟩ := key G B k hd hB0 (hn _ (by simp))
  obtain ⟨S, eS, dS⟩ := key G B s hd hB0 (hn _ (by simp))
  obtain ⟨M, eM, dM⟩ := key X _ m dX (hkillB x) (hn _ (by simp))
  obtain ⟨V, eV, dV⟩ := (C36_group_law p e K M _ _ dK dM).1
  obtain ⟨Z, eZ, dZ⟩ := key P A y hP hA (hn _ (by simp))
  obtain ⟨L, eL, dL⟩ := key P A l hP hA (hn _ (by simp))
  obtain ⟨S', eS', dS'⟩ := key P A s hP hA (hn _ (by simp))
  obtain ⟨M', eM', dM'⟩ := key Z _ m dZ (hkill y) (hn _ (by simp))
  obtain ⟨V', eV', dV'⟩ := (C36_group_law p e L M' _ _ dL dM').1
  rw [smul_smul, ← add_zsmul] at dV dV'
  simp only [eDleq, hG, Edwards.Curve.newScalar, scalar_new_eq e.r hr1, R.ok_bind, eX, eK, eS, eM, eV, eZ, eL, eS', eM', eV',
    C36_eq p e _ _ _ _ dS dV, C36_eq p e _ _ _ _ dS' dV', Inst.smul_eq_iff hB, Inst.smul_eq_iff hord, R.pure_eq]
  exact congrArg R.ok (Bool.decide_and _ _).symm

/-- C87, Edwards, soundness: if for the same keys and commitments responses to two different challenges are accepted, the two keys have the
same discrete logarithm. -/
theorem _root_.Redox.Props.C87_edwards_sound (e : Edwards.Curve) (h : EValid p e) [ECurve p e] (prof : Profile) (P : Edwards.Point) (A : eGroup p e)
    (hP : EDenotes p e P A) (hA : e.getOrder • A = 0) (hA0 : A ≠ 0) (x y k l m s m' s' : ℤ)
    (h0 : (∀ n ∈ [x, y, k, l, m, s, m', s'], ¬ (e.getOrder : ℤ) ∣ n) ∨ prof = .release) (hm : ¬ (e.getOrder : ℤ) ∣ m - m')
    (hacc : (do let g ← e.getGenerator
                let X ← g.mul prof (← e.newScalar x)
                let K ← g.mul prof (← e.newScalar k)
                let Z ← P.mul prof (← e.newScalar y)
                let L ← P.mul prof (← e.newScalar l)
                return ((← eDleq prof e P X Z K L m s) && (← eDleq prof e P X Z K L m' s'))) = R.ok true) :
    (e.getOrder : ℤ) ∣ x - y := by
  have h1 := Redox.Props.C87_edwards p e h prof P A hP hA hA0 x y k l m s (h0.imp (fun h n hn => h n (by simp at hn ⊢; tauto)) id)
  have h2 := Redox.Props.C87_edwards p e h prof P A hP hA hA0 x y k l m' s' (h0.imp (fun h n hn => h n (by simp at hn ⊢; tauto)) id)
  obtain ⟨g, hg, hacc⟩ := R.bind_eq_ok.1 hacc
  obtain ⟨sx, hsx, hacc⟩ := R.bind_eq_ok.1 hacc
  obtain ⟨X, hX, hacc⟩ := R.bind_eq_ok.1 hacc
  obtain ⟨sk, hsk, hacc⟩ := R.bind_eq_ok.1 hacc
  obtain ⟨K, hK, hacc⟩ := R.bind_eq_ok.1 hacc
  obtain ⟨sy, hsy, hacc⟩ := R.bind_eq_ok.1 hacc
  obtain ⟨Z, hZ, hacc⟩ := R.bind_eq_ok.1 hacc
  obtain ⟨sl, hsl, hacc⟩ := R.bind_eq_ok.1 hacc
  obtain ⟨L, hL, hacc⟩ := R.bind_eq_ok.1 hacc
  simp only [hg, hsx, hX, hsk, hK, hsy, hZ, hsl, hL, R.ok_bind] at h1 h2
  simp only [h1, h2, R.ok_bind, R.pure_eq, R.ok.injEq, Bool.and_eq_true, decide_eq_true_eq] at hacc
  exact special_sound h.order_prime hacc.1.1 hacc.1.2 hacc.2.1 hacc.2.2 hm

/-- C87, Edwards, completeness: the response computed with the scalar operations is accepted. -/
theorem _root_.Redox.Props.C87_edwards_complete (e : Edwards.Curve) (h : EValid p e) [ECurve p e] (prof : Profile) (P : Edwards.Point) (A : eGroup p e)
    (hP : EDenotes p e P A) (hA : e.getOrder • A = 0) (hA0 : A ≠ 0) (x k m : ℤ)
    (h0 : (∀ n ∈ [x, k, m, k + m * x], ¬ (e.getOrder : ℤ) ∣ n) ∨ prof = .release) :
    (do let g ← e.getGenerator
        let sx ← e.newScalar x
        let sk ← e.newScalar k
        let s ← sk.add (← (← e.newScalar m).mul sx)
        eDleq prof e P (← g.mul prof sx) (← P.mul prof sx) (← g.mul prof sk) (← P.mul prof sk) m s.k) = R.ok true := by
  have hr1 : 1 ≤ e.r := h.order_prime.one_le
  have h1 := Redox.Props.C87_edwards p e h prof P A hP hA hA0 x x k k m ((k + m * x) % e.r) (h0.imp (fun h n hn => by
    simp only [List.mem_cons, List.not_mem_nil, or_false] at hn
    rcases hn with rfl | rfl | rfl | rfl | rfl | rfl
    · exact h _ (by simp)
    · exact h _ (by simp)
    · exact h _ (by simp)
    · exact h _ (by simp)
    · exact h _ (by simp)
    · intro hd
      exact h (k + m * x) (by simp) (Int.dvd_of_emod_eq_zero (by
        have := Int.emod_eq_zero_of_dvd hd
        rwa [Edwards.Curve.getOrder, Int.emod_emod_of_dvd _ (dvd_refl _)] at this))) id)
  have hc : (e.getOrder : ℤ) ∣ (k + m * x) % e.r - (k + m * x) := by
    rw [Edwards.Curve.getOrder]
    exact Int.ModEq.dvd (Int.mod_modEq _ _).symm
  rw [decide_eq_true ⟨hc, hc⟩] at h1
  obtain ⟨g, hg, h1⟩ := R.bind_eq_ok.1 h1
  simp only [Edwards.Curve.newScalar, scalar_new_eq e.r hr1, R.ok_bind, scalar_mul_new hr1, scalar_add_new hr1, hg] at h1 ⊢
  obtain ⟨X, hX, h1⟩ := R.bind_eq_ok.1 h1
  obtain ⟨K, hK, h1⟩ := R.bind_eq_ok.1 h1
  obtain ⟨Z, hZ, h1⟩ := R.bind_eq_ok.1 h1
  obtain ⟨L, hL, h1⟩ := R.bind_eq_ok.1 h1
  simp only [hX, hK, hZ, hL, R.ok_bind]
  exact h1

end

/-- The hypotheses hold for the eleven named curves (C49), for instance with `P` the double of the generator; a run on EDWARDS25519. -/
example : EValid curve25519_p edwards25519 ∧ (do
    let P ← (← edwards25519.getGenerator).mul .debug (← edwards25519.newScalar 2)
    let a ← eBlind .debug edwards25519 P 5 7 true true
    let b ← (← P.mul .debug (← edwards25519.newScalar 7)).encode true
    return a == b) = R.ok true := by
  refine ⟨edwards25519_valid, by decide +kernel⟩

end Redox.Props.Flow
