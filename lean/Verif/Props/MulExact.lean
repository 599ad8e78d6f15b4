import Verif.Props.WeierPoints
import Verif.Props.MontPoints

/-!
# C101: scalar multiplication where the addition formulas have exceptions

The multiplication reads the scalar from the top: after the bits read so far, with value `m`, it holds `m` times the point. At a bit 1 it adds
the point to `m - 1` times the point, with `m` odd; the difference of the two is `m - 2` times the point.
-/

namespace Redox.Props.MulExact

open Spec

section generic
variable {Pt G : Type*} [AddCommGroup G]

theorem loop_exact (dbl addP : Pt → R Pt) (loop : List Bool → Pt → R Pt) (D : Pt → G → Prop) (O : Pt) (Exc : G → Prop) (A : G)
    (hnil : ∀ q, loop [] q = R.ok q)
    (hcons : ∀ b l q, loop (b :: l) q = (dbl q).bind fun q => (if b then addP q else R.ok q).bind fun q => loop l q)
    (hdbl : ∀ Q B, D Q B → ∃ S, dbl Q = R.ok S ∧ D S (B + B))
    (hadd : ∀ Q B, D Q B → ¬ Exc (B - A) → ∃ S, addP Q = R.ok S ∧ D S (B + A))
    (hexc : ∀ Q B, D Q B → Exc (B - A) → addP Q = R.ok O)
    (hO : dbl O = R.ok O ∧ addP O = R.ok O) (n : ℕ) : ∀ (L : ℕ) (Q : Pt), D Q ((n / 2 ^ L) • A) →
    ((∀ i < L, (n / 2 ^ i) % 2 = 1 → ¬ Exc (((n / 2 ^ i : ℕ) - 2 : ℤ) • A)) → ∃ S, loop (bitsDown n L) Q = R.ok S ∧ D S (n • A)) ∧
    ((∃ i < L, (n / 2 ^ i) % 2 = 1 ∧ Exc (((n / 2 ^ i : ℕ) - 2 : ℤ) • A)) → loop (bitsDown n L) Q = R.ok O) := by
  have stuck : ∀ l, loop l O = R.ok O := by
    intro l
    induction l with
    | nil => exact hnil O
    | cons b l ih =>
      rw [hcons, hO.1]
      cases b
      · simpa [R.bind] using ih
      · simpa [R.bind, hO.2] using ih
  intro L
  induction L with
  | zero =>
    intro Q hQ
    rw [pow_zero, Nat.div_one] at hQ
    exact ⟨fun _ => ⟨Q, hnil Q, hQ⟩, fun ⟨i, hi, _⟩ => by omega⟩
  | succ L ih =>
    intro Q hQ
    obtain ⟨S, hS, dS⟩ := hdbl Q _ hQ
    have hb : n / 2 ^ L = 2 * (n / 2 ^ (L + 1)) + (n.testBit L).toNat := by
      rw [pow_succ, ← Nat.div_div_eq_div_mul, Nat.toNat_testBit]
      omega
    rw [bitsDown, hcons, hS]
    simp only [R.bind]
    cases ht : n.testBit L with
    | false =>
      rw [ht] at hb
      simp only [Bool.toNat_false, add_zero] at hb
      simp only [Bool.false_eq_true, if_false]
      rw [← two_nsmul, ← mul_nsmul', ← hb] at dS
      obtain ⟨h1, h2⟩ := ih S dS
      refine ⟨fun h => h1 fun i hi => h i (by omega), ?_⟩
      rintro ⟨i, hi, hi1, hx⟩
      rcases Nat.lt_succ_iff_lt_or_eq.1 hi with hi | rfl
      · exact h2 ⟨i, hi, hi1, hx⟩
      · omega
    | true =>
      rw [ht] at hb
      simp only [Bool.toNat_true] at hb
      simp only [if_true]
      have hd : ((n / 2 ^ L : ℕ) - 2 : ℤ) • A = (n / 2 ^ (L + 1)) • A + (n / 2 ^ (L + 1)) • A - A := by
        have h1 := sub_zsmul A ((n / 2 ^ (L + 1) : ℕ) + (n / 2 ^ (L + 1) : ℕ)) 1
        rw [one_zsmul, ← sub_eq_add_neg] at h1
        rw [hb, ← natCast_zsmul, ← add_zsmul, ← h1]
        congr 1
        push_cast
        ring
      by_cases hx : Exc (((n / 2 ^ L : ℕ) - 2 : ℤ) • A)
      · refine ⟨fun h => absurd hx (h L (by omega) (by omega)), fun _ => ?_⟩
        rw [hexc S _ dS (by rwa [← hd])]
        exact stuck _
      · obtain ⟨T, hT, dT⟩ := hadd S _ dS (by rwa [← hd])
        rw [← two_nsmul, ← mul_nsmul', ← succ_nsmul, ← hb] at dT
        rw [hT]
        obtain ⟨h1, h2⟩ := ih T dT
        refine ⟨fun h => h1 fun i hi => h i (by omega), ?_⟩
        rintro ⟨i, hi, hi1, hx'⟩
        rcases Nat.lt_succ_iff_lt_or_eq.1 hi with hi | rfl
        · exact h2 ⟨i, hi, hi1, hx'⟩
        · exact absurd hx' hx

theorem orderTwo_iff (D : G) : addOrderOf D = 2 ↔ D ≠ 0 ∧ D + D = 0 := by
  have : Fact (Nat.Prime 2) := ⟨Nat.prime_two⟩
  rw [addOrderOf_eq_prime_iff, two_nsmul]
  exact and_comm

/-- Which multiples by odd numbers less two can have order two. -/
theorem order_mod_four {A : G} {m : ℤ} (hm : m % 2 = 1) (h : addOrderOf ((m - 2) • A) = 2) : addOrderOf A % 4 = 2 := by
  obtain ⟨h0, h1⟩ := (orderTwo_iff _).1 h
  rw [← two_zsmul, ← mul_zsmul', ← addOrderOf_dvd_iff_zsmul_eq_zero] at h1
  rw [Ne, ← addOrderOf_dvd_iff_zsmul_eq_zero] at h0
  obtain ⟨c, hc⟩ := h1
  generalize addOrderOf A = N at *
  rcases Int.emod_two_eq c with hc2 | hc2
  · refine absurd ⟨c / 2, ?_⟩ h0
    have : c = 2 * (c / 2) := by omega
    rw [this] at hc
    linarith
  · have h4 : ((m - 2) * 2) % 4 = 2 := by omega
    rw [hc] at h4
    have : ((N : ℤ) * c) % 4 = ((N : ℤ) % 4 * (c % 4)) % 4 := Int.mul_emod _ _ _
    have hc4 : c % 4 = 1 ∨ c % 4 = 3 := by omega
    have hN : (N : ℤ) % 4 = 0 ∨ (N : ℤ) % 4 = 1 ∨ (N : ℤ) % 4 = 2 ∨ (N : ℤ) % 4 = 3 := by omega
    rw [this] at h4
    rcases hc4 with hc4 | hc4 <;> rcases hN with hN | hN | hN | hN <;> rw [hc4, hN] at h4 <;> omega

theorem order_half {A : G} {n : ℕ} (h : addOrderOf A = 2 * n) (hn : n ≠ 0) : addOrderOf ((n : ℤ) • A) = 2 := by
  rw [natCast_zsmul, addOrderOf_nsmul' A hn, h, Nat.gcd_mul_left_left, Nat.mul_div_cancel _ (by omega)]

end generic

section weier
open Weierstrass WLink
variable (p : ℕ) [Fact p.Prime] (e : Curve)

/-- C101, Weierstrass, every nonsingular curve, every point and every scalar. Let `m` run over the odd numbers that leading bits of the scalar
spell. If `m - 2` times the point never has order two, `P * k` is `k` times the point. If it has for one of them, the result is `(0 : 0 : 0)`. -/
theorem _root_.Redox.Props.C101_weierstrass (he : WCurve p e) (hr : Big.bits e.r < usizeMod) (prof : Profile) (P : Point)
    (A : (wGroup p e).Point) (hP : WDenotes p e P A) (k : ℕ) (hk : k < e.r) (h0 : k ≠ 0 ∨ prof = .release) :
    ((∀ m i : ℕ, m = k / 2 ^ i → m % 2 = 1 → addOrderOf (((m : ℤ) - 2) • A) ≠ 2) → WReturns p e (P.mul prof ⟨k, e.r⟩) (k • A)) ∧
    ((∃ m i : ℕ, m = k / 2 ^ i ∧ m % 2 = 1 ∧ addOrderOf (((m : ℤ) - 2) • A) = 2) →
      ∃ S, P.mul prof ⟨k, e.r⟩ = R.ok S ∧ S.c.x.isZero ∧ S.c.y.isZero ∧ S.c.z.isZero) := by
  have hPe : P.e = e := hP.1
  have hI := identity_pt he
  have hId : WDenotes p e (pt e (0 : ZMod p) 1 0) ((k / 2 ^ Big.bits k) • A) := by
    rw [Nat.div_eq_of_lt (Big.lt_two_pow_bits k), zero_nsmul]; exact denotes_iff.2 ⟨_, _, _, rfl, rfl, one_ne_zero, rfl⟩
  have hmul : P.mul prof ⟨k, e.r⟩ = P.mulLoop (bitsDown k (Big.bits k)) (pt e (0 : ZMod p) 1 0) := by
    rw [Point.mul, hPe, beq_self_eq_true, doIfEq_true, Point.coreMul, hPe, hI, R.ok_bind]
    by_cases hn : k = 0
    · subst hn
      obtain rfl : prof = .release := by simpa using h0
      have := iterLR_zero_release (e.r : ℤ)
      simp only [Nat.cast_zero, this, R.ok_bind]
      rfl
    · have hb : Big.bits k < usizeMod := lt_of_le_of_lt (Big.bits_mono (by omega)) hr
      rw [iterLR_eq prof _ hn hb, R.ok_bind]
  obtain ⟨x, y, z, rfl, hA⟩ := denotes_iff.1 hP
  obtain ⟨h1, h2⟩ := loop_exact (fun q => q.coreDoubling) (fun q => q.add (pt e x y z)) (fun l q => (pt e x y z).mulLoop l q) (WDenotes p e)
    (pt e (0 : ZMod p) 0 0) (fun D => addOrderOf D = 2) A (fun q => rfl) (fun b l q => by cases b <;> rfl)
    (fun Q B hQ => by
      obtain ⟨x, y, z, rfl, hB⟩ := denotes_iff.1 hQ
      exact double_pt he hB)
    (fun Q B hQ hx => by
      obtain ⟨x, y, z, rfl, hB⟩ := denotes_iff.1 hQ
      exact add_pt he hB hA fun h => hx ((orderTwo_iff _).2 h))
    (fun Q B hQ hx => by
      obtain ⟨x, y, z, rfl, hB⟩ := denotes_iff.1 hQ
      exact add_pt_orderTwo he hB hA ((orderTwo_iff _).1 hx))
    (by
      constructor
      · rw [Point.coreDoubling, coreDoublingCoords_pt (ea he) (eb he) _ _ _ (by ring), R.ok_bind]
        change e.newProyPoint _ = _
        rw [newProyPoint_pt (ea he) (eb he)]
        simp [RCB.X3, RCB.Y3, RCB.Z3]
      · have hb : ((pt e (0 : ZMod p) 0 0).e == (pt e x y z).e) = true := by simp [pt]
        rw [Point.add, hb, doIfEq_true, Point.coreAdd, coreAddCoords_pt (ea he) (eb he), R.ok_bind]
        change e.newProyPoint _ = _
        rw [newProyPoint_pt (ea he) (eb he)]
        simp [RCB.X3, RCB.Y3, RCB.Z3])
    k (Big.bits k) _ hId
  rw [hmul]
  constructor
  · intro h
    exact h1 fun i _ hi => h _ i rfl hi
  · rintro ⟨m, i, rfl, hm, hx⟩
    refine ⟨_, h2 ⟨i, ?_, hm, hx⟩, by simp [pt], by simp [pt], by simp [pt]⟩
    by_contra hi
    rw [Nat.div_eq_of_lt (lt_of_lt_of_le (Big.lt_two_pow_bits k) (Nat.pow_le_pow_right (by norm_num) (by omega)))] at hm
    omega

/-- C101, Weierstrass: `P * k` is right for every scalar `k` exactly if the order of the point is not twice an odd number (assuming scalars up to
the order of the point plus one exist). -/
theorem _root_.Redox.Props.C101_weierstrass_order (he : WCurve p e) (hr : Big.bits e.r < usizeMod) (prof : Profile) (P : Point)
    (A : (wGroup p e).Point) (hP : WDenotes p e P A) :
    (addOrderOf A % 4 ≠ 2 → ∀ k < e.r, k ≠ 0 ∨ prof = .release → WReturns p e (P.mul prof ⟨k, e.r⟩) (k • A)) ∧
    (addOrderOf A % 4 = 2 → addOrderOf A / 2 + 2 < e.r →
      ∃ S, P.mul prof ⟨(addOrderOf A / 2 + 2 : ℕ), e.r⟩ = R.ok S ∧ S.c.x.isZero ∧ S.c.y.isZero ∧ S.c.z.isZero) := by
  constructor
  · intro h4 k hk h0
    exact (C101_weierstrass p e he hr prof P A hP k hk h0).1 fun m i hi hm h => h4 (order_mod_four (by omega) h)
  · intro h4 hk
    refine (C101_weierstrass p e he hr prof P A hP _ hk (Or.inl (by omega))).2 ⟨addOrderOf A / 2 + 2, 0, by simp, by omega, ?_⟩
    push_cast
    rw [add_sub_cancel_right]
    exact_mod_cast order_half (A := A) (n := addOrderOf A / 2) (by omega) (by omega)

/-- `y² = x³ + x + 4` over GF(7), ten points, all multiples of `(0, 2)`. -/
def toy10 : Curve := ⟨⟨7⟩, ⟨1, ⟨7⟩⟩, ⟨4, ⟨7⟩⟩, 10, ⟨0, ⟨7⟩⟩, ⟨2, ⟨7⟩⟩, 1⟩

/-- The second case occurs: the generator of this curve has order ten; its product with 7 is `(0 : 0 : 0)` and its product with 5 is right. -/
example : WCurve 7 toy10 ∧ (do (← toy10.getGenerator).mul .debug (← toy10.newScalar 7)) =
      R.ok ⟨toy10, ⟨⟨0, ⟨7⟩⟩, ⟨0, ⟨7⟩⟩, ⟨0, ⟨7⟩⟩⟩⟩ ∧
    (do (← (← toy10.getGenerator).mul .debug (← toy10.newScalar 5)).eq (← toy10.newPoint ⟨2, ⟨7⟩⟩ ⟨0, ⟨7⟩⟩)) = R.ok true :=
  ⟨⟨by norm_num, by norm_num, rfl, ⟨rfl, by decide, by decide⟩, ⟨rfl, by decide, by decide⟩, by decide⟩, by decide +kernel, by decide +kernel⟩

end weier

section mont
open Montgomery MLink Mont
variable (p : ℕ) [Fact p.Prime] (e : Curve)

theorem hasY_iff {F : Type*} [Field F] [DecidableEq F] {a : F} (s : F) (A : (Mont.M a).Point) : HasY s A ↔ ∃ x h, A = .some x s h := by
  cases A with
  | zero => exact ⟨fun h => h.elim, fun ⟨_, _, h⟩ => nomatch h⟩
  | some x y hh =>
    constructor
    · rintro rfl
      exact ⟨x, hh, rfl⟩
    · rintro ⟨x', h', h⟩
      cases h
      rfl

/-- C101, Montgomery, every nonsingular curve with `b = 1`, every constant `s`, every point and every scalar. Let `m` run over the odd numbers that leading bits of the scalar
spell. If `m - 2` times the
point never has the `y`-coordinate `s`, `P * k` is `k` times the point. If it has for one of them, the result is `(0 : 0 : 0)`. -/
theorem _root_.Redox.Props.C101_montgomery (he : MCurve p e) (hb1 : val p e.b = 1) (hr : Big.bits e.r < usizeMod) (prof : Profile) (P : Point)
    (A : (mGroup p e).Point) (hP : MDenotes p e P A) (k : ℕ) (hk : k < e.r) (h0 : k ≠ 0 ∨ prof = .release) :
    ((∀ m i : ℕ, m = k / 2 ^ i → m % 2 = 1 → ∀ x h, ((m : ℤ) - 2) • A ≠ .some x (val p e.s) h) → MReturns p e (P.mul prof ⟨k, e.r⟩) (k • A)) ∧
    ((∃ m i : ℕ, m = k / 2 ^ i ∧ m % 2 = 1 ∧ ∃ x h, ((m : ℤ) - 2) • A = .some x (val p e.s) h) →
      ∃ S, P.mul prof ⟨k, e.r⟩ = R.ok S ∧ S.c.x.isZero ∧ S.c.y.isZero ∧ S.c.z.isZero) := by
  have hPe : P.e = e := hP.1
  have hI := identity_pt he
  have hId : MDenotes p e (pt e (0 : ZMod p) 1 0) ((k / 2 ^ Big.bits k) • A) := by
    rw [Nat.div_eq_of_lt (Big.lt_two_pow_bits k), zero_nsmul]; exact denotes_iff.2 ⟨_, _, _, rfl, rfl, one_ne_zero, rfl⟩
  have hmul : P.mul prof ⟨k, e.r⟩ = P.mulLoop (bitsDown k (Big.bits k)) (pt e (0 : ZMod p) 1 0) := by
    rw [Point.mul, hPe, beq_self_eq_true, doIfEq_true, Point.coreMul, hPe, hI, R.ok_bind]
    by_cases hn : k = 0
    · subst hn
      obtain rfl : prof = .release := by simpa using h0
      have := iterLR_zero_release (e.r : ℤ)
      simp only [Nat.cast_zero, this, R.ok_bind]
      rfl
    · have hb : Big.bits k < usizeMod := lt_of_le_of_lt (Big.bits_mono (by omega)) hr
      rw [iterLR_eq prof _ hn hb, R.ok_bind]
  obtain ⟨x, y, z, rfl, hA⟩ := denotes_iff.1 hP
  obtain ⟨h1, h2⟩ := loop_exact (fun q => q.add q) (fun q => q.add (pt e x y z)) (fun l q => (pt e x y z).mulLoop l q) (MDenotes p e)
    (pt e (0 : ZMod p) 0 0) (fun D => HasY (val p e.s) D) A (fun q => rfl) (fun b l q => by cases b <;> rfl)
    (fun Q B hQ => by
      obtain ⟨x, y, z, rfl, hB⟩ := denotes_iff.1 hQ
      refine add_pt he hb1 hB hB ?_
      rw [sub_self]
      exact not_hasY_zero)
    (fun Q B hQ hx => by
      obtain ⟨x, y, z, rfl, hB⟩ := denotes_iff.1 hQ
      exact add_pt he hb1 hB hA hx)
    (fun Q B hQ hx => by
      obtain ⟨x, y, z, rfl, hB⟩ := denotes_iff.1 hQ
      exact add_pt_exceptional he hb1 hB hA hx)
    (by
      constructor
      · have hb : ((pt e (0 : ZMod p) 0 0).e == (pt e (0 : ZMod p) 0 0).e) = true := by simp [pt]
        rw [Point.add, hb, doIfEq_true, Point.coreAdd, coreAddCoords_pt (ea he) (es he), R.ok_bind]
        change e.newProyPoint _ = _
        rw [newProyPoint_pt (ea he) (eb he)]
        simp [Mont.X3, Mont.Y3, Mont.Z3, Mont.rr, Mont.tt, Mont.vv, Mont.ss, Mont.uu, Mont.ww]
      · have hb : ((pt e (0 : ZMod p) 0 0).e == (pt e x y z).e) = true := by simp [pt]
        rw [Point.add, hb, doIfEq_true, Point.coreAdd, coreAddCoords_pt (ea he) (es he), R.ok_bind]
        change e.newProyPoint _ = _
        rw [newProyPoint_pt (ea he) (eb he)]
        simp [Mont.X3, Mont.Y3, Mont.Z3, Mont.rr, Mont.tt, Mont.vv, Mont.ss, Mont.uu, Mont.ww])
    k (Big.bits k) _ hId
  rw [hmul]
  constructor
  · intro h
    refine h1 fun i _ hi => (hasY_iff _ _).not.2 ?_
    rintro ⟨x, hn, hx⟩
    exact h _ i rfl hi x hn hx
  · rintro ⟨m, i, rfl, hm, hx⟩
    refine ⟨_, h2 ⟨i, ?_, hm, (hasY_iff _ _).2 hx⟩, by simp [pt], by simp [pt], by simp [pt]⟩
    by_contra hi
    rw [Nat.div_eq_of_lt (lt_of_lt_of_le (Big.lt_two_pow_bits k) (Nat.pow_le_pow_right (by norm_num) (by omega)))] at hm
    omega


/-- C101, Montgomery with `s = 0`: `P * k` is right for every scalar `k` exactly if the order of the point is not twice an odd number (assuming
scalars up to the order of the point plus one exist). -/
theorem _root_.Redox.Props.C101_montgomery_order (he : MCurve p e) (hb1 : val p e.b = 1) (hs : val p e.s = 0) (hr : Big.bits e.r < usizeMod)
    (prof : Profile) (P : Point) (A : (mGroup p e).Point) (hP : MDenotes p e P A) :
    (addOrderOf A % 4 ≠ 2 → ∀ k < e.r, k ≠ 0 ∨ prof = .release → MReturns p e (P.mul prof ⟨k, e.r⟩) (k • A)) ∧
    (addOrderOf A % 4 = 2 → addOrderOf A / 2 + 2 < e.r →
      ∃ S, P.mul prof ⟨(addOrderOf A / 2 + 2 : ℕ), e.r⟩ = R.ok S ∧ S.c.x.isZero ∧ S.c.y.isZero ∧ S.c.z.isZero) := by
  have key : ∀ D : (mGroup p e).Point, (∃ x h, D = .some x (val p e.s) h) ↔ addOrderOf D = 2 := by
    intro D
    rw [orderTwo_iff, hs]
    have h2 := two_ne_zero' he.odd
    cases D with
    | zero => exact ⟨fun ⟨_, _, h⟩ => (nomatch h), fun h => absurd rfl h.1⟩
    | some x y hh =>
      have hy : (mGroup p e).negY x y = -y := by simp [WeierstrassCurve.Affine.negY]
      constructor
      · rintro ⟨x', h', h⟩
        cases h
        exact ⟨WeierstrassCurve.Affine.Point.some_ne_zero _, WeierstrassCurve.Affine.Point.add_of_Y_eq rfl (by rw [hy, neg_zero])⟩
      · rintro ⟨-, h⟩
        have h' := eq_neg_of_add_eq_zero_left h
        rw [WeierstrassCurve.Affine.Point.neg_some, WeierstrassCurve.Affine.Point.some.injEq, hy] at h'
        have hy0 : y = 0 := by
          have : (2 : ZMod p) * y = 0 := by linear_combination h'.2
          exact (mul_eq_zero.1 this).resolve_left h2
        subst hy0
        exact ⟨x, hh, rfl⟩
  constructor
  · intro h4 k hk h0
    exact (C101_montgomery p e he hb1 hr prof P A hP k hk h0).1 fun m i hi hm x h hx =>
      h4 (order_mod_four (m := m) (by omega) ((key _).1 ⟨x, h, hx⟩))
  · intro h4 hk
    refine (C101_montgomery p e he hb1 hr prof P A hP _ hk (Or.inl (by omega))).2 ⟨addOrderOf A / 2 + 2, 0, by simp, by omega, ?_⟩
    rw [key]
    push_cast
    rw [add_sub_cancel_right]
    exact_mod_cast order_half (A := A) (n := addOrderOf A / 2) (by omega) (by omega)

/-- The second case occurs: on `y² = x³ + 3 x² + x` over GF(7) with `s = 1` the product of the generator `(2, 1)` with 3 is `(0 : 0 : 0)`, and its
product with 2 is right. -/
example : MCurve 7 Mo.toyMs ∧ val 7 Mo.toyMs.b = 1 ∧ (do (← Mo.toyMs.getGenerator).mul .debug (← Mo.toyMs.newScalar 3)) =
      R.ok ⟨Mo.toyMs, ⟨⟨0, ⟨7⟩⟩, ⟨0, ⟨7⟩⟩, ⟨0, ⟨7⟩⟩⟩⟩ ∧
    (do let g ← Mo.toyMs.getGenerator
        (← g.mul .debug (← Mo.toyMs.newScalar 2)).eq (← g.add g)) = R.ok true :=
  ⟨Mo.toyMs_curve, by decide, by decide +kernel, by decide +kernel⟩

end mont
end Redox.Props.MulExact
