import Verif.Props.Threshold
import Verif.Props.SumProps

/-!
# C110: commitments, and C111: encryption

A commitment to `m` with the randomness `t` is `G * m + H * t`. A message point is encrypted under the key `A = G * a` as the pair
`(G * t, M + A * t)`. The programs below are what a user of the library writes.
-/

set_option linter.unusedSectionVars false

namespace Redox.Props.Commit

open Spec Redox.Inst Redox.Props.Flow Redox.Props.Threshold

section

variable {G : Type} [AddCommGroup G]

theorem zsmul_eq_iff {r : ℕ} {g : G} (ho : addOrderOf g = r) (a : ℤ) : a • g = 0 ↔ (r : ℤ) ∣ a := by
  rw [← ho, addOrderOf_dvd_iff_zsmul_eq_zero]

theorem open_iff (g h : G) (m₁ t₁ m₂ t₂ : ℤ) : m₁ • g + t₁ • h = m₂ • g + t₂ • h ↔ (m₁ - m₂) • g = (t₂ - t₁) • h := by
  rw [sub_zsmul, sub_zsmul, ← sub_eq_add_neg, ← sub_eq_add_neg, sub_eq_sub_iff_add_eq_add, add_comm (t₂ • h)]

theorem open_log {r : ℕ} {g : G} (ho : addOrderOf g = r) (k m₁ t₁ m₂ t₂ : ℤ) :
    (m₁ - m₂) • g = (t₂ - t₁) • (k • g) ↔ (r : ℤ) ∣ m₁ - m₂ - (t₂ - t₁) * k := by
  rw [← mul_zsmul, ← sub_eq_zero, ← zsmul_eq_iff ho, sub_zsmul g (m₁ - m₂), ← sub_eq_add_neg]

end

section
variable (p : ℕ) [Fact p.Prime]

theorem w_mul (e : Weierstrass.Curve) (h : WValid p e) (prof : Profile) {P : Weierstrass.Point} {A : (wGroup p e).Point} (hP : WDenotes p e P A) (hA : e.r • A = 0)
    (k : ℤ) (h0 : ¬ (e.r : ℤ) ∣ k ∨ prof = .release) :
    ∃ s S, e.newScalar k = R.ok s ∧ P.mul prof s = R.ok S ∧ WDenotes p e S (k • A) := by
  obtain ⟨S, hS, dS⟩ := C26_integer p e h.curve h.complete h.order_bits h.order_prime.one_le prof P A hP hA k h0
  obtain ⟨s, hs, hS⟩ := R.bind_eq_ok.1 hS
  exact ⟨s, S, hs, hS, dS⟩

theorem w_eq (e : Weierstrass.Curve) {P Q : Weierstrass.Point} {A B : (wGroup p e).Point} (hP : WDenotes p e P A) (hQ : WDenotes p e Q B) :
    P.eq Q = R.ok (decide (A = B)) := C27_eq p e _ _ _ _ hP hQ

theorem w_gen (e : Weierstrass.Curve) (h : WValid p e) {G : Weierstrass.Point} {g : (wGroup p e).Point} (hG : e.getGenerator = R.ok G) (hg : WDenotes p e G g) :
    addOrderOf g = e.r ∧ e.r • g = 0 := by
  obtain ⟨G', g', hG', hg', ho⟩ := h.generator
  rw [hG, R.ok.injEq] at hG'
  subst hG'
  obtain rfl := C27_unique p e _ _ _ hg hg'
  have := addOrderOf_nsmul_eq_zero g
  rw [ho] at this
  exact ⟨ho, this⟩

/-- A commitment to `m` with the randomness `t`, on a Weierstrass curve. -/
def wCommit (prof : Profile) (e : Weierstrass.Curve) (H : Weierstrass.Point) (m t : ℤ) : R Weierstrass.Point := do
  (← (← e.getGenerator).mul prof (← e.newScalar m)).add (← H.mul prof (← e.newScalar t))

/-- C110, Weierstrass: a commitment is `m` times the generator plus `t` times the second point; the sum of two commitments is the commitment to the sum with the
sum of the randomness; and two commitments are equal exactly if `(m₁ - m₂) G = (t₂ - t₁) H`. -/
theorem _root_.Redox.Props.C110_weierstrass (e : Weierstrass.Curve) (h : WValid p e) (prof : Profile) (G H : Weierstrass.Point) (g hh : (wGroup p e).Point)
    (hG : e.getGenerator = R.ok G) (hg : WDenotes p e G g) (hH : WDenotes p e H hh) (hk : e.getOrder • hh = 0) (m₁ t₁ m₂ t₂ : ℤ)
    (h0 : (∀ a ∈ [m₁, t₁, m₂, t₂, m₁ + m₂, t₁ + t₂], ¬ (e.getOrder : ℤ) ∣ a) ∨ prof = .release) :
    WReturns p e (wCommit prof e H m₁ t₁) (m₁ • g + t₁ • hh) ∧
    (do (← (← wCommit prof e H m₁ t₁).add (← wCommit prof e H m₂ t₂)).eq (← wCommit prof e H (m₁ + m₂) (t₁ + t₂))) = R.ok true ∧
    (do (← wCommit prof e H m₁ t₁).eq (← wCommit prof e H m₂ t₂)) = R.ok (decide ((m₁ - m₂) • g = (t₂ - t₁) • hh)) := by
  simp only [Weierstrass.Curve.getOrder] at hk h0
  obtain ⟨ho, hgk⟩ := w_gen p e h hG hg
  have com : ∀ m t : ℤ, ((¬ (e.r : ℤ) ∣ m ∧ ¬ (e.r : ℤ) ∣ t) ∨ prof = .release) →
      ∃ S, wCommit prof e H m t = R.ok S ∧ WDenotes p e S (m • g + t • hh) := by
    intro m t h0
    obtain ⟨s, S, hs, hS, dS⟩ := w_mul p e h prof hg hgk m (h0.imp (·.1) id)
    obtain ⟨s', T, hs', hT, dT⟩ := w_mul p e h prof hH hk t (h0.imp (·.2) id)
    obtain ⟨U, hU, dU⟩ := (C23_group_law p e h.curve h.complete S T _ _ dS dT).1
    exact ⟨U, by simp only [wCommit, hG, hs, hS, hs', hT, hU, R.ok_bind], dU⟩
  obtain ⟨C₁, h₁, d₁⟩ := com m₁ t₁ (h0.imp (fun h => ⟨h _ (by simp), h _ (by simp)⟩) id)
  obtain ⟨C₂, h₂, d₂⟩ := com m₂ t₂ (h0.imp (fun h => ⟨h _ (by simp), h _ (by simp)⟩) id)
  obtain ⟨C₃, h₃, d₃⟩ := com (m₁ + m₂) (t₁ + t₂) (h0.imp (fun h => ⟨h _ (by simp), h _ (by simp)⟩) id)
  obtain ⟨S, hS, dS⟩ := (C23_group_law p e h.curve h.complete C₁ C₂ _ _ d₁ d₂).1
  refine ⟨⟨C₁, h₁, d₁⟩, ?_, ?_⟩
  · simp only [h₁, h₂, h₃, R.ok_bind, hS, w_eq p e dS d₃, R.ok.injEq, decide_eq_true_eq, add_zsmul]
    abel
  · simp only [h₁, h₂, R.ok_bind, w_eq p e d₁ d₂, R.ok.injEq]
    exact decide_eq_decide.2 (open_iff ..)

/-- C110, Weierstrass, binding: from two openings of one commitment whose messages differ modulo the order, the quotient of the differences is the discrete
logarithm of the second point: the division and the multiplication return, and give that point. -/
theorem _root_.Redox.Props.C110_weierstrass_binding (e : Weierstrass.Curve) (h : WValid p e) (hr2 : e.getOrder ≠ 2) (prof : Profile) (G H : Weierstrass.Point)
    (g hh : (wGroup p e).Point) (hG : e.getGenerator = R.ok G) (hg : WDenotes p e G g) (hH : WDenotes p e H hh) (hk : e.getOrder • hh = 0) (m₁ t₁ m₂ t₂ : ℤ)
    (h0 : (∀ a ∈ [m₁, t₁, m₂, t₂], ¬ (e.getOrder : ℤ) ∣ a) ∨ prof = .release) (hm : ¬ (e.getOrder : ℤ) ∣ m₁ - m₂)
    (heq : (do (← wCommit prof e H m₁ t₁).eq (← wCommit prof e H m₂ t₂)) = R.ok true) :
    (do
      let k ← (← (← e.newScalar m₁).sub (← e.newScalar m₂)).div (← (← e.newScalar t₂).sub (← e.newScalar t₁))
      (← (← e.getGenerator).mul prof k).eq H) = R.ok true := by
  have hrp := h.order_prime
  simp only [Weierstrass.Curve.getOrder] at hk h0 hm hr2 hrp
  have := Fact.mk hrp
  have hmk : ∀ a, e.newScalar a = R.ok (sc e.r a) := new_sc e.r
  obtain ⟨ho, hgk⟩ := w_gen p e h hG hg
  have com : ∀ m t : ℤ, ((¬ (e.r : ℤ) ∣ m ∧ ¬ (e.r : ℤ) ∣ t) ∨ prof = .release) →
      ∃ S, wCommit prof e H m t = R.ok S ∧ WDenotes p e S (m • g + t • hh) := by
    intro m t h0
    obtain ⟨s, S, hs, hS, dS⟩ := w_mul p e h prof hg hgk m (h0.imp (·.1) id)
    obtain ⟨s', T, hs', hT, dT⟩ := w_mul p e h prof hH hk t (h0.imp (·.2) id)
    obtain ⟨U, hU, dU⟩ := (C23_group_law p e h.curve h.complete S T _ _ dS dT).1
    exact ⟨U, by simp only [wCommit, hG, hs, hS, hs', hT, hU, R.ok_bind], dU⟩
  obtain ⟨C₁, h₁, d₁⟩ := com m₁ t₁ (h0.imp (fun h => ⟨h _ (by simp), h _ (by simp)⟩) id)
  obtain ⟨C₂, h₂, d₂⟩ := com m₂ t₂ (h0.imp (fun h => ⟨h _ (by simp), h _ (by simp)⟩) id)
  simp only [h₁, h₂, R.ok_bind, w_eq p e d₁ d₂, R.ok.injEq, decide_eq_true_eq] at heq
  rw [open_iff] at heq
  have ht : ¬ (e.r : ℤ) ∣ t₂ - t₁ := by
    rintro ⟨c, hc⟩
    rw [hc, mul_comm, mul_zsmul, natCast_zsmul, hk, zsmul_zero, zsmul_eq_iff ho] at heq
    exact hm heq
  have hm' : ((m₁ : ZMod e.r) - m₂) ≠ 0 := by
    rw [← Int.cast_sub, Ne, ZMod.intCast_zmod_eq_zero_iff_dvd]; exact hm
  have ht' : ((t₂ : ZMod e.r) - t₁) ≠ 0 := by
    rw [← Int.cast_sub, Ne, ZMod.intCast_zmod_eq_zero_iff_dvd]; exact ht
  simp only [hmk, R.ok_bind, sub_sc, hG, div_sc e.r hr2 _ _ ht']
  obtain ⟨s, S, hs, hS, dS⟩ := w_mul p e h prof hg hgk (((m₁ : ZMod e.r) - m₂) / ((t₂ : ZMod e.r) - t₁)).val
    (Or.inl (by rw [dvd_val]; exact div_ne_zero hm' ht'))
  rw [hmk, R.ok.injEq, Int.cast_natCast, ZMod.natCast_rightInverse] at hs
  subst hs
  simp only [hS, R.ok_bind, w_eq p e dS hH, R.ok.injEq, decide_eq_true_eq]
  have hc : ((m₁ : ZMod e.r) - m₂) / ((t₂ : ZMod e.r) - t₁) * ((t₂ : ZMod e.r) - t₁) = (m₁ : ZMod e.r) - m₂ := div_mul_cancel₀ _ ht'
  generalize ((m₁ : ZMod e.r) - m₂) / ((t₂ : ZMod e.r) - t₁) = q at hc
  have h1 : (t₂ - t₁) • ((q.val : ℤ) • g - hh) = 0 := by
    rw [zsmul_sub, ← heq, ← mul_zsmul, sub_eq_zero]
    refine smul_val hgk ?_
    push_cast
    rw [← hc]
    simp [mul_comm]
  have h2 : (e.r : ℤ) • ((q.val : ℤ) • g - hh) = 0 := by
    rw [natCast_zsmul, nsmul_sub, smul_comm, hgk, hk, zsmul_zero, sub_zero]
  obtain ⟨a, b, hab⟩ := ((Nat.prime_iff_prime_int.1 hrp).coprime_iff_not_dvd.2 ht)
  rw [← sub_eq_zero, ← one_zsmul ((q.val : ℤ) • g - hh), ← hab, add_zsmul, mul_zsmul, mul_zsmul, h1, h2, zsmul_zero, zsmul_zero, add_zero]

/-- C110, Weierstrass, hiding: if the second point is a multiple of the generator other than the identity, a commitment can be opened to every message, with
exactly one residue of the randomness. -/
theorem _root_.Redox.Props.C110_weierstrass_hiding (e : Weierstrass.Curve) (h : WValid p e) (G H : Weierstrass.Point) (g hh : (wGroup p e).Point)
    (hG : e.getGenerator = R.ok G) (hg : WDenotes p e G g) (hH : WDenotes p e H hh) (k : ℤ) (hlog : hh = k • g) (hh0 : hh ≠ 0) (m₁ t₁ m₂ : ℤ) :
    ∃ t₀ : ℤ, ∀ (t₂ : ℤ) (prof : Profile), ((∀ a ∈ [m₁, t₁, m₂, t₂], ¬ (e.getOrder : ℤ) ∣ a) ∨ prof = .release) →
      (do (← wCommit prof e H m₁ t₁).eq (← wCommit prof e H m₂ t₂)) = R.ok (decide ((e.getOrder : ℤ) ∣ t₂ - t₀)) := by
  have hrp := h.order_prime
  simp only [Weierstrass.Curve.getOrder] at hrp ⊢
  obtain ⟨ho, hgk⟩ := w_gen p e h hG hg
  subst hlog
  have hk : e.r • k • g = 0 := by rw [smul_comm, hgk, zsmul_zero]
  have hkr : ¬ (e.r : ℤ) ∣ k := fun hd => hh0 ((zsmul_eq_iff ho k).2 hd)
  obtain ⟨a, b, hab⟩ := ((Nat.prime_iff_prime_int.1 hrp).coprime_iff_not_dvd.2 hkr)
  refine ⟨t₁ + (m₁ - m₂) * b, fun t₂ prof h0 => ?_⟩
  have com : ∀ m t : ℤ, ((¬ (e.r : ℤ) ∣ m ∧ ¬ (e.r : ℤ) ∣ t) ∨ prof = .release) →
      ∃ S, wCommit prof e H m t = R.ok S ∧ WDenotes p e S (m • g + t • k • g) := by
    intro m t h0
    obtain ⟨s, S, hs, hS, dS⟩ := w_mul p e h prof hg hgk m (h0.imp (·.1) id)
    obtain ⟨s', T, hs', hT, dT⟩ := w_mul p e h prof hH hk t (h0.imp (·.2) id)
    obtain ⟨U, hU, dU⟩ := (C23_group_law p e h.curve h.complete S T _ _ dS dT).1
    exact ⟨U, by simp only [wCommit, hG, hs, hS, hs', hT, hU, R.ok_bind], dU⟩
  obtain ⟨C₁, h₁, d₁⟩ := com m₁ t₁ (h0.imp (fun h => ⟨h _ (by simp), h _ (by simp)⟩) id)
  obtain ⟨C₂, h₂, d₂⟩ := com m₂ t₂ (h0.imp (fun h => ⟨h _ (by simp), h _ (by simp)⟩) id)
  simp only [h₁, h₂, R.ok_bind, w_eq p e d₁ d₂, R.ok.injEq]
  refine decide_eq_decide.2 ?_
  rw [open_iff, open_log ho]
  have e1 : m₁ - m₂ - (t₂ - t₁) * k = (m₁ - m₂) * a * e.r - (t₂ - (t₁ + (m₁ - m₂) * b)) * k := by linear_combination -(m₁ - m₂) * hab
  rw [e1, dvd_sub_right (Dvd.intro_left _ rfl), (Nat.prime_iff_prime_int.1 hrp).dvd_mul]
  exact or_iff_left hkr

/-- The encryption of `M` under the key `A` with the randomness `t`, on a Weierstrass curve. -/
def wEncrypt (prof : Profile) (e : Weierstrass.Curve) (A M : Weierstrass.Point) (t : ℤ) : R (Weierstrass.Point × Weierstrass.Point) := do
  let C ← (← e.getGenerator).mul prof (← e.newScalar t)
  let D ← M.add (← A.mul prof (← e.newScalar t))
  return (C, D)

/-- The decryption with the secret `a`. -/
def wDecrypt (prof : Profile) (e : Weierstrass.Curve) (a : ℤ) (c : Weierstrass.Point × Weierstrass.Point) : R Weierstrass.Point := do
  c.2.sub (← c.1.mul prof (← e.newScalar a))

/-- The sum of two encryptions. -/
def wEncAdd (c d : Weierstrass.Point × Weierstrass.Point) : R (Weierstrass.Point × Weierstrass.Point) := do
  let C ← c.1.add d.1
  let D ← c.2.add d.2
  return (C, D)

theorem w_encrypt (e : Weierstrass.Curve) (h : WValid p e) (prof : Profile) {G M : Weierstrass.Point} {g x : (wGroup p e).Point}
    (hG : e.getGenerator = R.ok G) (hg : WDenotes p e G g) (hM : WDenotes p e M x) (a t : ℤ)
    (ha : ¬ (e.r : ℤ) ∣ a ∨ prof = .release) (ht : ¬ (e.r : ℤ) ∣ t ∨ prof = .release) :
    ∃ A C D, (do (← e.getGenerator).mul prof (← e.newScalar a)) = R.ok A ∧ wEncrypt prof e A M t = R.ok (C, D) ∧
      WDenotes p e A (a • g) ∧ WDenotes p e C (t • g) ∧ WDenotes p e D (x + t • a • g) := by
  obtain ⟨ho, hgk⟩ := w_gen p e h hG hg
  obtain ⟨s, A, hs, hA, dA⟩ := w_mul p e h prof hg hgk a ha
  obtain ⟨s', C, hs', hC, dC⟩ := w_mul p e h prof hg hgk t ht
  obtain ⟨s'', T, hs'', hT, dT⟩ := w_mul p e h prof dA (by rw [smul_comm, hgk, zsmul_zero]) t ht
  obtain rfl : s'' = s' := by rw [hs'', R.ok.injEq] at hs'; exact hs'
  obtain ⟨D, hD, dD⟩ := (C23_group_law p e h.curve h.complete M T _ _ hM dT).1
  refine ⟨A, C, D, by simp only [hG, hs, hA, R.ok_bind], ?_, dA, dC, dD⟩
  simp only [wEncrypt, hG, hs', hC, hT, hD, R.ok_bind]
  rfl

theorem w_decrypt (e : Weierstrass.Curve) (h : WValid p e) (prof : Profile) {C D : Weierstrass.Point} {x y : (wGroup p e).Point}
    (hC : WDenotes p e C x) (hx : e.r • x = 0) (hD : WDenotes p e D y) (a : ℤ) (ha : ¬ (e.r : ℤ) ∣ a ∨ prof = .release) :
    ∃ Q, wDecrypt prof e a (C, D) = R.ok Q ∧ WDenotes p e Q (y - a • x) := by
  obtain ⟨s, T, hs, hT, dT⟩ := w_mul p e h prof hC hx a ha
  obtain ⟨Q, hQ, dQ⟩ := (C23_group_law p e h.curve h.complete D T _ _ hD dT).2.1
  exact ⟨Q, by simp only [wDecrypt, hs, hT, hQ, R.ok_bind], dQ⟩

/-- C111, Weierstrass: encrypting any point `M` of the curve under `A = G * a` and decrypting with `b` returns a point that is `M` exactly if
`t * (a - b)` is a multiple of the order; so the secret itself decrypts every encryption, and a wrong secret none made with nonzero randomness. -/
theorem _root_.Redox.Props.C111_weierstrass (e : Weierstrass.Curve) (h : WValid p e) (prof : Profile) (M : Weierstrass.Point) (x : (wGroup p e).Point)
    (hM : WDenotes p e M x) (a b t : ℤ) (h0 : (∀ k ∈ [a, b, t], ¬ (e.getOrder : ℤ) ∣ k) ∨ prof = .release) :
    (do
      let A ← (← e.getGenerator).mul prof (← e.newScalar a)
      let c ← wEncrypt prof e A M t
      (← wDecrypt prof e b c).eq M) = R.ok (decide ((e.getOrder : ℤ) ∣ t * (a - b))) := by
  simp only [Weierstrass.Curve.getOrder] at h0 ⊢
  obtain ⟨G, g, hG, hg, -⟩ := h.generator
  obtain ⟨ho, hgk⟩ := w_gen p e h hG hg
  obtain ⟨A, C, D, hA, hE, dA, dC, dD⟩ := w_encrypt p e h prof hG hg hM a t (h0.imp (fun h => h _ (by simp)) id) (h0.imp (fun h => h _ (by simp)) id)
  obtain ⟨Q, hQ, dQ⟩ := w_decrypt p e h prof dC (by rw [smul_comm, hgk, zsmul_zero]) dD b (h0.imp (fun h => h _ (by simp)) id)
  simp only [hG, R.ok_bind] at hA
  obtain ⟨s, hs, hA⟩ := R.bind_eq_ok.1 hA
  simp only [hG, hs, hA, hE, hQ, R.ok_bind, w_eq p e dQ hM, R.ok.injEq]
  refine decide_eq_decide.2 ?_
  rw [← zsmul_eq_iff ho, add_sub_assoc, add_eq_left, mul_sub, sub_zsmul, mul_zsmul, mul_comm t b, mul_zsmul, ← sub_eq_add_neg]

/-- C111, Weierstrass, sums: the sum of two encryptions is the encryption of the sum of the messages with the sum of the randomness, as seen through `==`, and
decrypts to the sum of the messages. With the identity for `N` this is a change of the randomness of an encryption. -/
theorem _root_.Redox.Props.C111_weierstrass_sum (e : Weierstrass.Curve) (h : WValid p e) (prof : Profile) (M N : Weierstrass.Point) (x y : (wGroup p e).Point)
    (hM : WDenotes p e M x) (hN : WDenotes p e N y) (a t u : ℤ) (h0 : (∀ k ∈ [a, t, u, t + u], ¬ (e.getOrder : ℤ) ∣ k) ∨ prof = .release) :
    ∃ A c d f S i, (do (← e.getGenerator).mul prof (← e.newScalar a)) = R.ok A ∧ wEncrypt prof e A M t = R.ok c ∧ wEncrypt prof e A N u = R.ok d ∧
      wEncAdd c d = R.ok f ∧ WReturns p e (wDecrypt prof e a f) (x + y) ∧
      M.add N = R.ok S ∧ wEncrypt prof e A S (t + u) = R.ok i ∧ f.1.eq i.1 = R.ok true ∧ f.2.eq i.2 = R.ok true := by
  simp only [Weierstrass.Curve.getOrder] at h0
  obtain ⟨G, g, hG, hg, -⟩ := h.generator
  obtain ⟨ho, hgk⟩ := w_gen p e h hG hg
  have ha : ¬ (e.r : ℤ) ∣ a ∨ prof = .release := h0.imp (fun h => h _ (by simp)) id
  obtain ⟨S, hS, dS⟩ := (C23_group_law p e h.curve h.complete M N _ _ hM hN).1
  obtain ⟨A, C, D, hA, hE, dA, dC, dD⟩ := w_encrypt p e h prof hG hg hM a t ha (h0.imp (fun h => h _ (by simp)) id)
  obtain ⟨A', C', D', hA', hE', dA', dC', dD'⟩ := w_encrypt p e h prof hG hg hN a u ha (h0.imp (fun h => h _ (by simp)) id)
  obtain ⟨A'', I, J, hA'', hE'', dA'', dI, dJ⟩ := w_encrypt p e h prof hG hg dS a (t + u) ha (h0.imp (fun h => h _ (by simp)) id)
  obtain rfl : A' = A := by rw [hA', R.ok.injEq] at hA; exact hA
  obtain rfl : A'' = A' := by rw [hA'', R.ok.injEq] at hA'; exact hA'
  obtain ⟨F, hF, dF⟩ := (C23_group_law p e h.curve h.complete C C' _ _ dC dC').1
  obtain ⟨F', hF', dF'⟩ := (C23_group_law p e h.curve h.complete D D' _ _ dD dD').1
  obtain ⟨Q, hQ, dQ⟩ := w_decrypt p e h prof dF (by rw [← add_zsmul, smul_comm, hgk, zsmul_zero]) dF' a ha
  refine ⟨A'', (C, D), (C', D'), (F, F'), S, (I, J), hA, hE, hE', ?_, ⟨Q, hQ, ?_⟩, hS, hE'', ?_, ?_⟩
  · simp only [wEncAdd, hF, hF', R.ok_bind]
    rfl
  · convert dQ using 1
    rw [zsmul_add, smul_comm a t, smul_comm a u]
    abel
  · rw [w_eq p e dF dI, R.ok.injEq, decide_eq_true_eq, add_zsmul]
  · rw [w_eq p e dF' dJ, R.ok.injEq, decide_eq_true_eq, add_zsmul]
    abel

theorem m_mul (e : Montgomery.Curve) (h : MValid p e) (prof : Profile) {P : Montgomery.Point} {A : (mGroup p e).Point} (hP : MDenotes p e P A) (hA : e.r • A = 0)
    (k : ℤ) (h0 : ¬ (e.r : ℤ) ∣ k ∨ prof = .release) :
    ∃ s S, e.newScalar k = R.ok s ∧ P.mul prof s = R.ok S ∧ MDenotes p e S (k • A) := by
  obtain ⟨S, hS, dS⟩ := C33_integer_partial p e h.curve h.b_one h.complete h.order_bits h.order_prime.one_le prof P A hP hA k h0
  obtain ⟨s, hs, hS⟩ := R.bind_eq_ok.1 hS
  exact ⟨s, S, hs, hS, dS⟩

theorem m_eq (e : Montgomery.Curve) {P Q : Montgomery.Point} {A B : (mGroup p e).Point} (hP : MDenotes p e P A) (hQ : MDenotes p e Q B) :
    P.eq Q = R.ok (decide (A = B)) := (C32_eq p e _ _ _ _ hP hQ).1

theorem m_gen (e : Montgomery.Curve) (h : MValid p e) {G : Montgomery.Point} {g : (mGroup p e).Point} (hG : e.getGenerator = R.ok G) (hg : MDenotes p e G g) :
    addOrderOf g = e.r ∧ e.r • g = 0 := by
  obtain ⟨G', g', hG', hg', ho⟩ := h.generator
  rw [hG, R.ok.injEq] at hG'
  subst hG'
  obtain rfl := EdMap.mDenotes_unique hg hg'
  have := addOrderOf_nsmul_eq_zero g
  rw [ho] at this
  exact ⟨ho, this⟩

/-- A commitment to `m` with the randomness `t`, on a Montgomery curve. -/
def mCommit (prof : Profile) (e : Montgomery.Curve) (H : Montgomery.Point) (m t : ℤ) : R Montgomery.Point := do
  (← (← e.getGenerator).mul prof (← e.newScalar m)).add (← H.mul prof (← e.newScalar t))

/-- C110, Montgomery: a commitment is `m` times the generator plus `t` times the second point; the sum of two commitments is the commitment to the sum with the
sum of the randomness; and two commitments are equal exactly if `(m₁ - m₂) G = (t₂ - t₁) H`. -/
theorem _root_.Redox.Props.C110_montgomery (e : Montgomery.Curve) (h : MValid p e) (prof : Profile) (G H : Montgomery.Point) (g hh : (mGroup p e).Point)
    (hG : e.getGenerator = R.ok G) (hg : MDenotes p e G g) (hH : MDenotes p e H hh) (hk : e.getOrder • hh = 0) (m₁ t₁ m₂ t₂ : ℤ)
    (h0 : (∀ a ∈ [m₁, t₁, m₂, t₂, m₁ + m₂, t₁ + t₂], ¬ (e.getOrder : ℤ) ∣ a) ∨ prof = .release) :
    MReturns p e (mCommit prof e H m₁ t₁) (m₁ • g + t₁ • hh) ∧
    (do (← (← mCommit prof e H m₁ t₁).add (← mCommit prof e H m₂ t₂)).eq (← mCommit prof e H (m₁ + m₂) (t₁ + t₂))) = R.ok true ∧
    (do (← mCommit prof e H m₁ t₁).eq (← mCommit prof e H m₂ t₂)) = R.ok (decide ((m₁ - m₂) • g = (t₂ - t₁) • hh)) := by
  simp only [Montgomery.Curve.getOrder] at hk h0
  obtain ⟨ho, hgk⟩ := m_gen p e h hG hg
  have com : ∀ m t : ℤ, ((¬ (e.r : ℤ) ∣ m ∧ ¬ (e.r : ℤ) ∣ t) ∨ prof = .release) →
      ∃ S, mCommit prof e H m t = R.ok S ∧ MDenotes p e S (m • g + t • hh) := by
    intro m t h0
    obtain ⟨s, S, hs, hS, dS⟩ := m_mul p e h prof hg hgk m (h0.imp (·.1) id)
    obtain ⟨s', T, hs', hT, dT⟩ := m_mul p e h prof hH hk t (h0.imp (·.2) id)
    obtain ⟨U, hU, dU⟩ := (C32_group_law_partial p e h.curve h.b_one h.complete S T _ _ dS dT).1
    exact ⟨U, by simp only [mCommit, hG, hs, hS, hs', hT, hU, R.ok_bind], dU⟩
  obtain ⟨C₁, h₁, d₁⟩ := com m₁ t₁ (h0.imp (fun h => ⟨h _ (by simp), h _ (by simp)⟩) id)
  obtain ⟨C₂, h₂, d₂⟩ := com m₂ t₂ (h0.imp (fun h => ⟨h _ (by simp), h _ (by simp)⟩) id)
  obtain ⟨C₃, h₃, d₃⟩ := com (m₁ + m₂) (t₁ + t₂) (h0.imp (fun h => ⟨h _ (by simp), h _ (by simp)⟩) id)
  obtain ⟨S, hS, dS⟩ := (C32_group_law_partial p e h.curve h.b_one h.complete C₁ C₂ _ _ d₁ d₂).1
  refine ⟨⟨C₁, h₁, d₁⟩, ?_, ?_⟩
  · simp only [h₁, h₂, h₃, R.ok_bind, hS, m_eq p e dS d₃, R.ok.injEq, decide_eq_true_eq, add_zsmul]
    abel
  · simp only [h₁, h₂, R.ok_bind, m_eq p e d₁ d₂, R.ok.injEq]
    exact decide_eq_decide.2 (open_iff ..)

/-- C110, Montgomery, binding: from two openings of one commitment whose messages differ modulo the order, the quotient of the differences is the discrete
logarithm of the second point: the division and the multiplication return, and give that point. -/
theorem _root_.Redox.Props.C110_montgomery_binding (e : Montgomery.Curve) (h : MValid p e) (hr2 : e.getOrder ≠ 2) (prof : Profile) (G H : Montgomery.Point)
    (g hh : (mGroup p e).Point) (hG : e.getGenerator = R.ok G) (hg : MDenotes p e G g) (hH : MDenotes p e H hh) (hk : e.getOrder • hh = 0) (m₁ t₁ m₂ t₂ : ℤ)
    (h0 : (∀ a ∈ [m₁, t₁, m₂, t₂], ¬ (e.getOrder : ℤ) ∣ a) ∨ prof = .release) (hm : ¬ (e.getOrder : ℤ) ∣ m₁ - m₂)
    (heq : (do (← mCommit prof e H m₁ t₁).eq (← mCommit prof e H m₂ t₂)) = R.ok true) :
    (do
      let k ← (← (← e.newScalar m₁).sub (← e.newScalar m₂)).div (← (← e.newScalar t₂).sub (← e.newScalar t₁))
      (← (← e.getGenerator).mul prof k).eq H) = R.ok true := by
  have hrp := h.order_prime
  simp only [Montgomery.Curve.getOrder] at hk h0 hm hr2 hrp
  have := Fact.mk hrp
  have hmk : ∀ a, e.newScalar a = R.ok (sc e.r a) := new_sc e.r
  obtain ⟨ho, hgk⟩ := m_gen p e h hG hg
  have com : ∀ m t : ℤ, ((¬ (e.r : ℤ) ∣ m ∧ ¬ (e.r : ℤ) ∣ t) ∨ prof = .release) →
      ∃ S, mCommit prof e H m t = R.ok S ∧ MDenotes p e S (m • g + t • hh) := by
    intro m t h0
    obtain ⟨s, S, hs, hS, dS⟩ := m_mul p e h prof hg hgk m (h0.imp (·.1) id)
    obtain ⟨s', T, hs', hT, dT⟩ := m_mul p e h prof hH hk t (h0.imp (·.2) id)
    obtain ⟨U, hU, dU⟩ := (C32_group_law_partial p e h.curve h.b_one h.complete S T _ _ dS dT).1
    exact ⟨U, by simp only [mCommit, hG, hs, hS, hs', hT, hU, R.ok_bind], dU⟩
  obtain ⟨C₁, h₁, d₁⟩ := com m₁ t₁ (h0.imp (fun h => ⟨h _ (by simp), h _ (by simp)⟩) id)
  obtain ⟨C₂, h₂, d₂⟩ := com m₂ t₂ (h0.imp (fun h => ⟨h _ (by simp), h _ (by simp)⟩) id)
  simp only [h₁, h₂, R.ok_bind, m_eq p e d₁ d₂, R.ok.injEq, decide_eq_true_eq] at heq
  rw [open_iff] at heq
  have ht : ¬ (e.r : ℤ) ∣ t₂ - t₁ := by
    rintro ⟨c, hc⟩
    rw [hc, mul_comm, mul_zsmul, natCast_zsmul, hk, zsmul_zero, zsmul_eq_iff ho] at heq
    exact hm heq
  have hm' : ((m₁ : ZMod e.r) - m₂) ≠ 0 := by
    rw [← Int.cast_sub, Ne, ZMod.intCast_zmod_eq_zero_iff_dvd]; exact hm
  have ht' : ((t₂ : ZMod e.r) - t₁) ≠ 0 := by
    rw [← Int.cast_sub, Ne, ZMod.intCast_zmod_eq_zero_iff_dvd]; exact ht
  simp only [hmk, R.ok_bind, sub_sc, hG, div_sc e.r hr2 _ _ ht']
  obtain ⟨s, S, hs, hS, dS⟩ := m_mul p e h prof hg hgk (((m₁ : ZMod e.r) - m₂) / ((t₂ : ZMod e.r) - t₁)).val
    (Or.inl (by rw [dvd_val]; exact div_ne_zero hm' ht'))
  rw [hmk, R.ok.injEq, Int.cast_natCast, ZMod.natCast_rightInverse] at hs
  subst hs
  simp only [hS, R.ok_bind, m_eq p e dS hH, R.ok.injEq, decide_eq_true_eq]
  have hc : ((m₁ : ZMod e.r) - m₂) / ((t₂ : ZMod e.r) - t₁) * ((t₂ : ZMod e.r) - t₁) = (m₁ : ZMod e.r) - m₂ := div_mul_cancel₀ _ ht'
  generalize ((m₁ : ZMod e.r) - m₂) / ((t₂ : ZMod e.r) - t₁) = q at hc
  have h1 : (t₂ - t₁) • ((q.val : ℤ) • g - hh) = 0 := by
    rw [zsmul_sub, ← heq, ← mul_zsmul, sub_eq_zero]
    refine smul_val hgk ?_
    push_cast
    rw [← hc]
    simp [mul_comm]
  have h2 : (e.r : ℤ) • ((q.val : ℤ) • g - hh) = 0 := by
    rw [natCast_zsmul, nsmul_sub, smul_comm, hgk, hk, zsmul_zero, sub_zero]
  obtain ⟨a, b, hab⟩ := ((Nat.prime_iff_prime_int.1 hrp).coprime_iff_not_dvd.2 ht)
  rw [← sub_eq_zero, ← one_zsmul ((q.val : ℤ) • g - hh), ← hab, add_zsmul, mul_zsmul, mul_zsmul, h1, h2, zsmul_zero, zsmul_zero, add_zero]

/-- C110, Montgomery, hiding: if the second point is a multiple of the generator other than the identity, a commitment can be opened to every message, with
exactly one residue of the randomness. -/
theorem _root_.Redox.Props.C110_montgomery_hiding (e : Montgomery.Curve) (h : MValid p e) (G H : Montgomery.Point) (g hh : (mGroup p e).Point)
    (hG : e.getGenerator = R.ok G) (hg : MDenotes p e G g) (hH : MDenotes p e H hh) (k : ℤ) (hlog : hh = k • g) (hh0 : hh ≠ 0) (m₁ t₁ m₂ : ℤ) :
    ∃ t₀ : ℤ, ∀ (t₂ : ℤ) (prof : Profile), ((∀ a ∈ [m₁, t₁, m₂, t₂], ¬ (e.getOrder : ℤ) ∣ a) ∨ prof = .release) →
      (do (← mCommit prof e H m₁ t₁).eq (← mCommit prof e H m₂ t₂)) = R.ok (decide ((e.getOrder : ℤ) ∣ t₂ - t₀)) := by
  have hrp := h.order_prime
  simp only [Montgomery.Curve.getOrder] at hrp ⊢
  obtain ⟨ho, hgk⟩ := m_gen p e h hG hg
  subst hlog
  have hk : e.r • k • g = 0 := by rw [smul_comm, hgk, zsmul_zero]
  have hkr : ¬ (e.r : ℤ) ∣ k := fun hd => hh0 ((zsmul_eq_iff ho k).2 hd)
  obtain ⟨a, b, hab⟩ := ((Nat.prime_iff_prime_int.1 hrp).coprime_iff_not_dvd.2 hkr)
  refine ⟨t₁ + (m₁ - m₂) * b, fun t₂ prof h0 => ?_⟩
  have com : ∀ m t : ℤ, ((¬ (e.r : ℤ) ∣ m ∧ ¬ (e.r : ℤ) ∣ t) ∨ prof = .release) →
      ∃ S, mCommit prof e H m t = R.ok S ∧ MDenotes p e S (m • g + t • k • g) := by
    intro m t h0
    obtain ⟨s, S, hs, hS, dS⟩ := m_mul p e h prof hg hgk m (h0.imp (·.1) id)
    obtain ⟨s', T, hs', hT, dT⟩ := m_mul p e h prof hH hk t (h0.imp (·.2) id)
    obtain ⟨U, hU, dU⟩ := (C32_group_law_partial p e h.curve h.b_one h.complete S T _ _ dS dT).1
    exact ⟨U, by simp only [mCommit, hG, hs, hS, hs', hT, hU, R.ok_bind], dU⟩
  obtain ⟨C₁, h₁, d₁⟩ := com m₁ t₁ (h0.imp (fun h => ⟨h _ (by simp), h _ (by simp)⟩) id)
  obtain ⟨C₂, h₂, d₂⟩ := com m₂ t₂ (h0.imp (fun h => ⟨h _ (by simp), h _ (by simp)⟩) id)
  simp only [h₁, h₂, R.ok_bind, m_eq p e d₁ d₂, R.ok.injEq]
  refine decide_eq_decide.2 ?_
  rw [open_iff, open_log ho]
  have e1 : m₁ - m₂ - (t₂ - t₁) * k = (m₁ - m₂) * a * e.r - (t₂ - (t₁ + (m₁ - m₂) * b)) * k := by linear_combination -(m₁ - m₂) * hab
  rw [e1, dvd_sub_right (Dvd.intro_left _ rfl), (Nat.prime_iff_prime_int.1 hrp).dvd_mul]
  exact or_iff_left hkr

/-- The encryption of `M` under the key `A` with the randomness `t`, on a Montgomery curve. -/
def mEncrypt (prof : Profile) (e : Montgomery.Curve) (A M : Montgomery.Point) (t : ℤ) : R (Montgomery.Point × Montgomery.Point) := do
  let C ← (← e.getGenerator).mul prof (← e.newScalar t)
  let D ← M.add (← A.mul prof (← e.newScalar t))
  return (C, D)

/-- The decryption with the secret `a`. -/
def mDecrypt (prof : Profile) (e : Montgomery.Curve) (a : ℤ) (c : Montgomery.Point × Montgomery.Point) : R Montgomery.Point := do
  c.2.sub (← c.1.mul prof (← e.newScalar a))

/-- The sum of two encryptions. -/
def mEncAdd (c d : Montgomery.Point × Montgomery.Point) : R (Montgomery.Point × Montgomery.Point) := do
  let C ← c.1.add d.1
  let D ← c.2.add d.2
  return (C, D)

theorem m_encrypt (e : Montgomery.Curve) (h : MValid p e) (prof : Profile) {G M : Montgomery.Point} {g x : (mGroup p e).Point}
    (hG : e.getGenerator = R.ok G) (hg : MDenotes p e G g) (hM : MDenotes p e M x) (a t : ℤ)
    (ha : ¬ (e.r : ℤ) ∣ a ∨ prof = .release) (ht : ¬ (e.r : ℤ) ∣ t ∨ prof = .release) :
    ∃ A C D, (do (← e.getGenerator).mul prof (← e.newScalar a)) = R.ok A ∧ mEncrypt prof e A M t = R.ok (C, D) ∧
      MDenotes p e A (a • g) ∧ MDenotes p e C (t • g) ∧ MDenotes p e D (x + t • a • g) := by
  obtain ⟨ho, hgk⟩ := m_gen p e h hG hg
  obtain ⟨s, A, hs, hA, dA⟩ := m_mul p e h prof hg hgk a ha
  obtain ⟨s', C, hs', hC, dC⟩ := m_mul p e h prof hg hgk t ht
  obtain ⟨s'', T, hs'', hT, dT⟩ := m_mul p e h prof dA (by rw [smul_comm, hgk, zsmul_zero]) t ht
  obtain rfl : s'' = s' := by rw [hs'', R.ok.injEq] at hs'; exact hs'
  obtain ⟨D, hD, dD⟩ := (C32_group_law_partial p e h.curve h.b_one h.complete M T _ _ hM dT).1
  refine ⟨A, C, D, by simp only [hG, hs, hA, R.ok_bind], ?_, dA, dC, dD⟩
  simp only [mEncrypt, hG, hs', hC, hT, hD, R.ok_bind]
  rfl

theorem m_decrypt (e : Montgomery.Curve) (h : MValid p e) (prof : Profile) {C D : Montgomery.Point} {x y : (mGroup p e).Point}
    (hC : MDenotes p e C x) (hx : e.r • x = 0) (hD : MDenotes p e D y) (a : ℤ) (ha : ¬ (e.r : ℤ) ∣ a ∨ prof = .release) :
    ∃ Q, mDecrypt prof e a (C, D) = R.ok Q ∧ MDenotes p e Q (y - a • x) := by
  obtain ⟨s, T, hs, hT, dT⟩ := m_mul p e h prof hC hx a ha
  obtain ⟨Q, hQ, dQ⟩ := (C32_group_law_partial p e h.curve h.b_one h.complete D T _ _ hD dT).2.1
  exact ⟨Q, by simp only [mDecrypt, hs, hT, hQ, R.ok_bind], dQ⟩

/-- C111, Montgomery: encrypting any point `M` of the curve under `A = G * a` and decrypting with `b` returns a point that is `M` exactly if
`t * (a - b)` is a multiple of the order; so the secret itself decrypts every encryption, and a wrong secret none made with nonzero randomness. -/
theorem _root_.Redox.Props.C111_montgomery (e : Montgomery.Curve) (h : MValid p e) (prof : Profile) (M : Montgomery.Point) (x : (mGroup p e).Point)
    (hM : MDenotes p e M x) (a b t : ℤ) (h0 : (∀ k ∈ [a, b, t], ¬ (e.getOrder : ℤ) ∣ k) ∨ prof = .release) :
    (do
      let A ← (← e.getGenerator).mul prof (← e.newScalar a)
      let c ← mEncrypt prof e A M t
      (← mDecrypt prof e b c).eq M) = R.ok (decide ((e.getOrder : ℤ) ∣ t * (a - b))) := by
  simp only [Montgomery.Curve.getOrder] at h0 ⊢
  obtain ⟨G, g, hG, hg, -⟩ := h.generator
  obtain ⟨ho, hgk⟩ := m_gen p e h hG hg
  obtain ⟨A, C, D, hA, hE, dA, dC, dD⟩ := m_encrypt p e h prof hG hg hM a t (h0.imp (fun h => h _ (by simp)) id) (h0.imp (fun h => h _ (by simp)) id)
  obtain ⟨Q, hQ, dQ⟩ := m_decrypt p e h prof dC (by rw [smul_comm, hgk, zsmul_zero]) dD b (h0.imp (fun h => h _ (by simp)) id)
  simp only [hG, R.ok_bind] at hA
  obtain ⟨s, hs, hA⟩ := R.bind_eq_ok.1 hA
  simp only [hG, hs, hA, hE, hQ, R.ok_bind, m_eq p e dQ hM, R.ok.injEq]
  refine decide_eq_decide.2 ?_
  rw [← zsmul_eq_iff ho, add_sub_assoc, add_eq_left, mul_sub, sub_zsmul, mul_zsmul, mul_comm t b, mul_zsmul, ← sub_eq_add_neg]

/-- C111, Montgomery, sums: the sum of two encryptions is the encryption of the sum of the messages with the sum of the randomness, as seen through `==`, and
decrypts to the sum of the messages. With the identity for `N` this is a change of the randomness of an encryption. -/
theorem _root_.Redox.Props.C111_montgomery_sum (e : Montgomery.Curve) (h : MValid p e) (prof : Profile) (M N : Montgomery.Point) (x y : (mGroup p e).Point)
    (hM : MDenotes p e M x) (hN : MDenotes p e N y) (a t u : ℤ) (h0 : (∀ k ∈ [a, t, u, t + u], ¬ (e.getOrder : ℤ) ∣ k) ∨ prof = .release) :
    ∃ A c d f S i, (do (← e.getGenerator).mul prof (← e.newScalar a)) = R.ok A ∧ mEncrypt prof e A M t = R.ok c ∧ mEncrypt prof e A N u = R.ok d ∧
      mEncAdd c d = R.ok f ∧ MReturns p e (mDecrypt prof e a f) (x + y) ∧
      M.add N = R.ok S ∧ mEncrypt prof e A S (t + u) = R.ok i ∧ f.1.eq i.1 = R.ok true ∧ f.2.eq i.2 = R.ok true := by
  simp only [Montgomery.Curve.getOrder] at h0
  obtain ⟨G, g, hG, hg, -⟩ := h.generator
  obtain ⟨ho, hgk⟩ := m_gen p e h hG hg
  have ha : ¬ (e.r : ℤ) ∣ a ∨ prof = .release := h0.imp (fun h => h _ (by simp)) id
  obtain ⟨S, hS, dS⟩ := (C32_group_law_partial p e h.curve h.b_one h.complete M N _ _ hM hN).1
  obtain ⟨A, C, D, hA, hE, dA, dC, dD⟩ := m_encrypt p e h prof hG hg hM a t ha (h0.imp (fun h => h _ (by simp)) id)
  obtain ⟨A', C', D', hA', hE', dA', dC', dD'⟩ := m_encrypt p e h prof hG hg hN a u ha (h0.imp (fun h => h _ (by simp)) id)
  obtain ⟨A'', I, J, hA'', hE'', dA'', dI, dJ⟩ := m_encrypt p e h prof hG hg dS a (t + u) ha (h0.imp (fun h => h _ (by simp)) id)
  obtain rfl : A' = A := by rw [hA', R.ok.injEq] at hA; exact hA
  obtain rfl : A'' = A' := by rw [hA'', R.ok.injEq] at hA'; exact hA'
  obtain ⟨F, hF, dF⟩ := (C32_group_law_partial p e h.curve h.b_one h.complete C C' _ _ dC dC').1
  obtain ⟨F', hF', dF'⟩ := (C32_group_law_partial p e h.curve h.b_one h.complete D D' _ _ dD dD').1
  obtain ⟨Q, hQ, dQ⟩ := m_decrypt p e h prof dF (by rw [← add_zsmul, smul_comm, hgk, zsmul_zero]) dF' a ha
  refine ⟨A'', (C, D), (C', D'), (F, F'), S, (I, J), hA, hE, hE', ?_, ⟨Q, hQ, ?_⟩, hS, hE'', ?_, ?_⟩
  · simp only [mEncAdd, hF, hF', R.ok_bind]
    rfl
  · convert dQ using 1
    rw [zsmul_add, smul_comm a t, smul_comm a u]
    abel
  · rw [m_eq p e dF dI, R.ok.injEq, decide_eq_true_eq, add_zsmul]
  · rw [m_eq p e dF' dJ, R.ok.injEq, decide_eq_true_eq, add_zsmul]
    abel

theorem e_mul (e : Edwards.Curve) (h : EValid p e) [ECurve p e] (prof : Profile) {P : Edwards.Point} {A : eGroup p e} (hP : EDenotes p e P A) (hA : e.r • A = 0)
    (k : ℤ) (h0 : ¬ (e.r : ℤ) ∣ k ∨ prof = .release) :
    ∃ s S, e.newScalar k = R.ok s ∧ P.mul prof s = R.ok S ∧ EDenotes p e S (k • A) := by
  obtain ⟨S, hS, dS⟩ := C37_integer_partial p e h.order_bits h.order_prime.one_le prof P A hP hA k h0
  obtain ⟨s, hs, hS⟩ := R.bind_eq_ok.1 hS
  exact ⟨s, S, hs, hS, dS⟩

theorem e_eq (e : Edwards.Curve) [ECurve p e] {P Q : Edwards.Point} {A B : eGroup p e} (hP : EDenotes p e P A) (hQ : EDenotes p e Q B) :
    P.eq Q = R.ok (decide (A = B)) := C36_eq p e _ _ _ _ hP hQ

theorem e_gen (e : Edwards.Curve) (h : EValid p e) [ECurve p e] {G : Edwards.Point} {g : eGroup p e} (hG : e.getGenerator = R.ok G) (hg : EDenotes p e G g) :
    addOrderOf g = e.r ∧ e.r • g = 0 := by
  obtain ⟨G', g', hG', hg', ho⟩ := h.generator
  rw [hG, R.ok.injEq] at hG'
  subst hG'
  obtain rfl := EdMap.eDenotes_unique hg hg'
  have := addOrderOf_nsmul_eq_zero g
  rw [ho] at this
  exact ⟨ho, this⟩

/-- A commitment to `m` with the randomness `t`, on an Edwards curve. -/
def eCommit (prof : Profile) (e : Edwards.Curve) (H : Edwards.Point) (m t : ℤ) : R Edwards.Point := do
  (← (← e.getGenerator).mul prof (← e.newScalar m)).add (← H.mul prof (← e.newScalar t))

/-- C110, Edwards: a commitment is `m` times the generator plus `t` times the second point; the sum of two commitments is the commitment to the sum with the
sum of the randomness; and two commitments are equal exactly if `(m₁ - m₂) G = (t₂ - t₁) H`. -/
theorem _root_.Redox.Props.C110_edwards (e : Edwards.Curve) (h : EValid p e) [ECurve p e] (prof : Profile) (G H : Edwards.Point) (g hh : eGroup p e)
    (hG : e.getGenerator = R.ok G) (hg : EDenotes p e G g) (hH : EDenotes p e H hh) (hk : e.getOrder • hh = 0) (m₁ t₁ m₂ t₂ : ℤ)
    (h0 : (∀ a ∈ [m₁, t₁, m₂, t₂, m₁ + m₂, t₁ + t₂], ¬ (e.getOrder : ℤ) ∣ a) ∨ prof = .release) :
    EReturns p e (eCommit prof e H m₁ t₁) (m₁ • g + t₁ • hh) ∧
    (do (← (← eCommit prof e H m₁ t₁).add (← eCommit prof e H m₂ t₂)).eq (← eCommit prof e H (m₁ + m₂) (t₁ + t₂))) = R.ok true ∧
    (do (← eCommit prof e H m₁ t₁).eq (← eCommit prof e H m₂ t₂)) = R.ok (decide ((m₁ - m₂) • g = (t₂ - t₁) • hh)) := by
  simp only [Edwards.Curve.getOrder] at hk h0
  obtain ⟨ho, hgk⟩ := e_gen p e h hG hg
  have com : ∀ m t : ℤ, ((¬ (e.r : ℤ) ∣ m ∧ ¬ (e.r : ℤ) ∣ t) ∨ prof = .release) →
      ∃ S, eCommit prof e H m t = R.ok S ∧ EDenotes p e S (m • g + t • hh) := by
    intro m t h0
    obtain ⟨s, S, hs, hS, dS⟩ := e_mul p e h prof hg hgk m (h0.imp (·.1) id)
    obtain ⟨s', T, hs', hT, dT⟩ := e_mul p e h prof hH hk t (h0.imp (·.2) id)
    obtain ⟨U, hU, dU⟩ := (C36_group_law p e S T _ _ dS dT).1
    exact ⟨U, by simp only [eCommit, hG, hs, hS, hs', hT, hU, R.ok_bind], dU⟩
  obtain ⟨C₁, h₁, d₁⟩ := com m₁ t₁ (h0.imp (fun h => ⟨h _ (by simp), h _ (by simp)⟩) id)
  obtain ⟨C₂, h₂, d₂⟩ := com m₂ t₂ (h0.imp (fun h => ⟨h _ (by simp), h _ (by simp)⟩) id)
  obtain ⟨C₃, h₃, d₃⟩ := com (m₁ + m₂) (t₁ + t₂) (h0.imp (fun h => ⟨h _ (by simp), h _ (by simp)⟩) id)
  obtain ⟨S, hS, dS⟩ := (C36_group_law p e C₁ C₂ _ _ d₁ d₂).1
  refine ⟨⟨C₁, h₁, d₁⟩, ?_, ?_⟩
  · simp only [h₁, h₂, h₃, R.ok_bind, hS, e_eq p e dS d₃, R.ok.injEq, decide_eq_true_eq, add_zsmul]
    abel
  · simp only [h₁, h₂, R.ok_bind, e_eq p e d₁ d₂, R.ok.injEq]
    exact decide_eq_decide.2 (open_iff ..)

/-- C110, Edwards, binding: from two openings of one commitment whose messages differ modulo the order, the quotient of the differences is the discrete
logarithm of the second point: the division and the multiplication return, and give that point. -/
theorem _root_.Redox.Props.C110_edwards_binding (e : Edwards.Curve) (h : EValid p e) [ECurve p e] (hr2 : e.getOrder ≠ 2) (prof : Profile) (G H : Edwards.Point)
    (g hh : eGroup p e) (hG : e.getGenerator = R.ok G) (hg : EDenotes p e G g) (hH : EDenotes p e H hh) (hk : e.getOrder • hh = 0) (m₁ t₁ m₂ t₂ : ℤ)
    (h0 : (∀ a ∈ [m₁, t₁, m₂, t₂], ¬ (e.getOrder : ℤ) ∣ a) ∨ prof = .release) (hm : ¬ (e.getOrder : ℤ) ∣ m₁ - m₂)
    (heq : (do (← eCommit prof e H m₁ t₁).eq (← eCommit prof e H m₂ t₂)) = R.ok true) :
    (do
      let k ← (← (← e.newScalar m₁).sub (← e.newScalar m₂)).div (← (← e.newScalar t₂).sub (← e.newScalar t₁))
      (← (← e.getGenerator).mul prof k).eq H) = R.ok true := by
  have hrp := h.order_prime
  simp only [Edwards.Curve.getOrder] at hk h0 hm hr2 hrp
  have := Fact.mk hrp
  have hmk : ∀ a, e.newScalar a = R.ok (sc e.r a) := new_sc e.r
  obtain ⟨ho, hgk⟩ := e_gen p e h hG hg
  have com : ∀ m t : ℤ, ((¬ (e.r : ℤ) ∣ m ∧ ¬ (e.r : ℤ) ∣ t) ∨ prof = .release) →
      ∃ S, eCommit prof e H m t = R.ok S ∧ EDenotes p e S (m • g + t • hh) := by
    intro m t h0
    obtain ⟨s, S, hs, hS, dS⟩ := e_mul p e h prof hg hgk m (h0.imp (·.1) id)
    obtain ⟨s', T, hs', hT, dT⟩ := e_mul p e h prof hH hk t (h0.imp (·.2) id)
    obtain ⟨U, hU, dU⟩ := (C36_group_law p e S T _ _ dS dT).1
    exact ⟨U, by simp only [eCommit, hG, hs, hS, hs', hT, hU, R.ok_bind], dU⟩
  obtain ⟨C₁, h₁, d₁⟩ := com m₁ t₁ (h0.imp (fun h => ⟨h _ (by simp), h _ (by simp)⟩) id)
  obtain ⟨C₂, h₂, d₂⟩ := com m₂ t₂ (h0.imp (fun h => ⟨h _ (by simp), h _ (by simp)⟩) id)
  simp only [h₁, h₂, R.ok_bind, e_eq p e d₁ d₂, R.ok.injEq, decide_eq_true_eq] at heq
  rw [open_iff] at heq
  have ht : ¬ (e.r : ℤ) ∣ t₂ - t₁ := by
    rintro ⟨c, hc⟩
    rw [hc, mul_comm, mul_zsmul, natCast_zsmul, hk, zsmul_zero, zsmul_eq_iff ho] at heq
    exact hm heq
  have hm' : ((m₁ : ZMod e.r) - m₂) ≠ 0 := by
    rw [← Int.cast_sub, Ne, ZMod.intCast_zmod_eq_zero_iff_dvd]; exact hm
  have ht' : ((t₂ : ZMod e.r) - t₁) ≠ 0 := by
    rw [← Int.cast_sub, Ne, ZMod.intCast_zmod_eq_zero_iff_dvd]; exact ht
  simp only [hmk, R.ok_bind, sub_sc, hG, div_sc e.r hr2 _ _ ht']
  obtain ⟨s, S, hs, hS, dS⟩ := e_mul p e h prof hg hgk (((m₁ : ZMod e.r) - m₂) / ((t₂ : ZMod e.r) - t₁)).val
    (Or.inl (by rw [dvd_val]; exact div_ne_zero hm' ht'))
  rw [hmk, R.ok.injEq, Int.cast_natCast, ZMod.natCast_rightInverse] at hs
  subst hs
  simp only [hS, R.ok_bind, e_eq p e dS hH, R.ok.injEq, decide_eq_true_eq]
  have hc : ((m₁ : ZMod e.r) - m₂) / ((t₂ : ZMod e.r) - t₁) * ((t₂ : ZMod e.r) - t₁) = (m₁ : ZMod e.r) - m₂ := div_mul_cancel₀ _ ht'
  generalize ((m₁ : ZMod e.r) - m₂) / ((t₂ : ZMod e.r) - t₁) = q at hc
  have h1 : (t₂ - t₁) • ((q.val : ℤ) • g - hh) = 0 := by
    rw [zsmul_sub, ← heq, ← mul_zsmul, sub_eq_zero]
    refine smul_val hgk ?_
    push_cast
    rw [← hc]
    simp [mul_comm]
  have h2 : (e.r : ℤ) • ((q.val : ℤ) • g - hh) = 0 := by
    rw [natCast_zsmul, nsmul_sub, smul_comm, hgk, hk, zsmul_zero, sub_zero]
  obtain ⟨a, b, hab⟩ := ((Nat.prime_iff_prime_int.1 hrp).coprime_iff_not_dvd.2 ht)
  rw [← sub_eq_zero, ← one_zsmul ((q.val : ℤ) • g - hh), ← hab, add_zsmul, mul_zsmul, mul_zsmul, h1, h2, zsmul_zero, zsmul_zero, add_zero]

/-- C110, Edwards, hiding: if the second point is a multiple of the generator other than the identity, a commitment can be opened to every message, with
exactly one residue of the randomness. -/
theorem _root_.Redox.Props.C110_edwards_hiding (e : Edwards.Curve) (h : EValid p e) [ECurve p e] (G H : Edwards.Point) (g hh : eGroup p e)
    (hG : e.getGenerator = R.ok G) (hg : EDenotes p e G g) (hH : EDenotes p e H hh) (k : ℤ) (hlog : hh = k • g) (hh0 : hh ≠ 0) (m₁ t₁ m₂ : ℤ) :
    ∃ t₀ : ℤ, ∀ (t₂ : ℤ) (prof : Profile), ((∀ a ∈ [m₁, t₁, m₂, t₂], ¬ (e.getOrder : ℤ) ∣ a) ∨ prof = .release) →
      (do (← eCommit prof e H m₁ t₁).eq (← eCommit prof e H m₂ t₂)) = R.ok (decide ((e.getOrder : ℤ) ∣ t₂ - t₀)) := by
  have hrp := h.order_prime
  simp only [Edwards.Curve.getOrder] at hrp ⊢
  obtain ⟨ho, hgk⟩ := e_gen p e h hG hg
  subst hlog
  have hk : e.r • k • g = 0 := by rw [smul_comm, hgk, zsmul_zero]
  have hkr : ¬ (e.r : ℤ) ∣ k := fun hd => hh0 ((zsmul_eq_iff ho k).2 hd)
  obtain ⟨a, b, hab⟩ := ((Nat.prime_iff_prime_int.1 hrp).coprime_iff_not_dvd.2 hkr)
  refine ⟨t₁ + (m₁ - m₂) * b, fun t₂ prof h0 => ?_⟩
  have com : ∀ m t : ℤ, ((¬ (e.r : ℤ) ∣ m ∧ ¬ (e.r : ℤ) ∣ t) ∨ prof = .release) →
      ∃ S, eCommit prof e H m t = R.ok S ∧ EDenotes p e S (m • g + t • k • g) := by
    intro m t h0
    obtain ⟨s, S, hs, hS, dS⟩ := e_mul p e h prof hg hgk m (h0.imp (·.1) id)
    obtain ⟨s', T, hs', hT, dT⟩ := e_mul p e h prof hH hk t (h0.imp (·.2) id)
    obtain ⟨U, hU, dU⟩ := (C36_group_law p e S T _ _ dS dT).1
    exact ⟨U, by simp only [eCommit, hG, hs, hS, hs', hT, hU, R.ok_bind], dU⟩
  obtain ⟨C₁, h₁, d₁⟩ := com m₁ t₁ (h0.imp (fun h => ⟨h _ (by simp), h _ (by simp)⟩) id)
  obtain ⟨C₂, h₂, d₂⟩ := com m₂ t₂ (h0.imp (fun h => ⟨h _ (by simp), h _ (by simp)⟩) id)
  simp only [h₁, h₂, R.ok_bind, e_eq p e d₁ d₂, R.ok.injEq]
  refine decide_eq_decide.2 ?_
  rw [open_iff, open_log ho]
  have e1 : m₁ - m₂ - (t₂ - t₁) * k = (m₁ - m₂) * a * e.r - (t₂ - (t₁ + (m₁ - m₂) * b)) * k := by linear_combination -(m₁ - m₂) * hab
  rw [e1, dvd_sub_right (Dvd.intro_left _ rfl), (Nat.prime_iff_prime_int.1 hrp).dvd_mul]
  exact or_iff_left hkr

/-- The encryption of `M` under the key `A` with the randomness `t`, on an Edwards curve. -/
def eEncrypt (prof : Profile) (e : Edwards.Curve) (A M : Edwards.Point) (t : ℤ) : R (Edwards.Point × Edwards.Point) := do
  let C ← (← e.getGenerator).mul prof (← e.newScalar t)
  let D ← M.add (← A.mul prof (← e.newScalar t))
  return (C, D)

/-- The decryption with the secret `a`. -/
def eDecrypt (prof : Profile) (e : Edwards.Curve) (a : ℤ) (c : Edwards.Point × Edwards.Point) : R Edwards.Point := do
  c.2.sub (← c.1.mul prof (← e.newScalar a))

/-- The sum of two encryptions. -/
def eEncAdd (c d : Edwards.Point × Edwards.Point) : R (Edwards.Point × Edwards.Point) := do
  let C ← c.1.add d.1
  let D ← c.2.add d.2
  return (C, D)

theorem e_encrypt (e : Edwards.Curve) (h : EValid p e) [ECurve p e] (prof : Profile) {G M : Edwards.Point} {g x : eGroup p e}
    (hG : e.getGenerator = R.ok G) (hg : EDenotes p e G g) (hM : EDenotes p e M x) (a t : ℤ)
    (ha : ¬ (e.r : ℤ) ∣ a ∨ prof = .release) (ht : ¬ (e.r : ℤ) ∣ t ∨ prof = .release) :
    ∃ A C D, (do (← e.getGenerator).mul prof (← e.newScalar a)) = R.ok A ∧ eEncrypt prof e A M t = R.ok (C, D) ∧
      EDenotes p e A (a • g) ∧ EDenotes p e C (t • g) ∧ EDenotes p e D (x + t • a • g) := by
  obtain ⟨ho, hgk⟩ := e_gen p e h hG hg
  obtain ⟨s, A, hs, hA, dA⟩ := e_mul p e h prof hg hgk a ha
  obtain ⟨s', C, hs', hC, dC⟩ := e_mul p e h prof hg hgk t ht
  obtain ⟨s'', T, hs'', hT, dT⟩ := e_mul p e h prof dA (by rw [smul_comm, hgk, zsmul_zero]) t ht
  obtain rfl : s'' = s' := by rw [hs'', R.ok.injEq] at hs'; exact hs'
  obtain ⟨D, hD, dD⟩ := (C36_group_law p e M T _ _ hM dT).1
  refine ⟨A, C, D, by simp only [hG, hs, hA, R.ok_bind], ?_, dA, dC, dD⟩
  simp only [eEncrypt, hG, hs', hC, hT, hD, R.ok_bind]
  rfl

theorem e_decrypt (e : Edwards.Curve) (h : EValid p e) [ECurve p e] (prof : Profile) {C D : Edwards.Point} {x y : eGroup p e}
    (hC : EDenotes p e C x) (hx : e.r • x = 0) (hD : EDenotes p e D y) (a : ℤ) (ha : ¬ (e.r : ℤ) ∣ a ∨ prof = .release) :
    ∃ Q, eDecrypt prof e a (C, D) = R.ok Q ∧ EDenotes p e Q (y - a • x) := by
  obtain ⟨s, T, hs, hT, dT⟩ := e_mul p e h prof hC hx a ha
  obtain ⟨Q, hQ, dQ⟩ := (C36_group_law p e D T _ _ hD dT).2.1
  exact ⟨Q, by simp only [eDecrypt, hs, hT, hQ, R.ok_bind], dQ⟩

/-- C111, Edwards: encrypting any point `M` of the curve under `A = G * a` and decrypting with `b` returns a point that is `M` exactly if
`t * (a - b)` is a multiple of the order; so the secret itself decrypts every encryption, and a wrong secret none made with nonzero randomness. -/
theorem _root_.Redox.Props.C111_edwards (e : Edwards.Curve) (h : EValid p e) [ECurve p e] (prof : Profile) (M : Edwards.Point) (x : eGroup p e)
    (hM : EDenotes p e M x) (a b t : ℤ) (h0 : (∀ k ∈ [a, b, t], ¬ (e.getOrder : ℤ) ∣ k) ∨ prof = .release) :
    (do
      let A ← (← e.getGenerator).mul prof (← e.newScalar a)
      let c ← eEncrypt prof e A M t
      (← eDecrypt prof e b c).eq M) = R.ok (decide ((e.getOrder : ℤ) ∣ t * (a - b))) := by
  simp only [Edwards.Curve.getOrder] at h0 ⊢
  obtain ⟨G, g, hG, hg, -⟩ := h.generator
  obtain ⟨ho, hgk⟩ := e_gen p e h hG hg
  obtain ⟨A, C, D, hA, hE, dA, dC, dD⟩ := e_encrypt p e h prof hG hg hM a t (h0.imp (fun h => h _ (by simp)) id) (h0.imp (fun h => h _ (by simp)) id)
  obtain ⟨Q, hQ, dQ⟩ := e_decrypt p e h prof dC (by rw [smul_comm, hgk, zsmul_zero]) dD b (h0.imp (fun h => h _ (by simp)) id)
  simp only [hG, R.ok_bind] at hA
  obtain ⟨s, hs, hA⟩ := R.bind_eq_ok.1 hA
  simp only [hG, hs, hA, hE, hQ, R.ok_bind, e_eq p e dQ hM, R.ok.injEq]
  refine decide_eq_decide.2 ?_
  rw [← zsmul_eq_iff ho, add_sub_assoc, add_eq_left, mul_sub, sub_zsmul, mul_zsmul, mul_comm t b, mul_zsmul, ← sub_eq_add_neg]

/-- C111, Edwards, sums: the sum of two encryptions is the encryption of the sum of the messages with the sum of the randomness, as seen through `==`, and
decrypts to the sum of the messages. With the identity for `N` this is a change of the randomness of an encryption. -/
theorem _root_.Redox.Props.C111_edwards_sum (e : Edwards.Curve) (h : EValid p e) [ECurve p e] (prof : Profile) (M N : Edwards.Point) (x y : eGroup p e)
    (hM : EDenotes p e M x) (hN : EDenotes p e N y) (a t u : ℤ) (h0 : (∀ k ∈ [a, t, u, t + u], ¬ (e.getOrder : ℤ) ∣ k) ∨ prof = .release) :
    ∃ A c d f S i, (do (← e.getGenerator).mul prof (← e.newScalar a)) = R.ok A ∧ eEncrypt prof e A M t = R.ok c ∧ eEncrypt prof e A N u = R.ok d ∧
      eEncAdd c d = R.ok f ∧ EReturns p e (eDecrypt prof e a f) (x + y) ∧
      M.add N = R.ok S ∧ eEncrypt prof e A S (t + u) = R.ok i ∧ f.1.eq i.1 = R.ok true ∧ f.2.eq i.2 = R.ok true := by
  simp only [Edwards.Curve.getOrder] at h0
  obtain ⟨G, g, hG, hg, -⟩ := h.generator
  obtain ⟨ho, hgk⟩ := e_gen p e h hG hg
  have ha : ¬ (e.r : ℤ) ∣ a ∨ prof = .release := h0.imp (fun h => h _ (by simp)) id
  obtain ⟨S, hS, dS⟩ := (C36_group_law p e M N _ _ hM hN).1
  obtain ⟨A, C, D, hA, hE, dA, dC, dD⟩ := e_encrypt p e h prof hG hg hM a t ha (h0.imp (fun h => h _ (by simp)) id)
  obtain ⟨A', C', D', hA', hE', dA', dC', dD'⟩ := e_encrypt p e h prof hG hg hN a u ha (h0.imp (fun h => h _ (by simp)) id)
  obtain ⟨A'', I, J, hA'', hE'', dA'', dI, dJ⟩ := e_encrypt p e h prof hG hg dS a (t + u) ha (h0.imp (fun h => h _ (by simp)) id)
  obtain rfl : A' = A := by rw [hA', R.ok.injEq] at hA; exact hA
  obtain rfl : A'' = A' := by rw [hA'', R.ok.injEq] at hA'; exact hA'
  obtain ⟨F, hF, dF⟩ := (C36_group_law p e C C' _ _ dC dC').1
  obtain ⟨F', hF', dF'⟩ := (C36_group_law p e D D' _ _ dD dD').1
  obtain ⟨Q, hQ, dQ⟩ := e_decrypt p e h prof dF (by rw [← add_zsmul, smul_comm, hgk, zsmul_zero]) dF' a ha
  refine ⟨A'', (C, D), (C', D'), (F, F'), S, (I, J), hA, hE, hE', ?_, ⟨Q, hQ, ?_⟩, hS, hE'', ?_, ?_⟩
  · simp only [eEncAdd, hF, hF', R.ok_bind]
    rfl
  · convert dQ using 1
    rw [zsmul_add, smul_comm a t, smul_comm a u]
    abel
  · rw [e_eq p e dF dI, R.ok.injEq, decide_eq_true_eq, add_zsmul]
  · rw [e_eq p e dF' dJ, R.ok.injEq, decide_eq_true_eq, add_zsmul]
    abel

end

end Redox.Props.Commit
