import Verif.Spec.Arith
import Verif.Props.FieldArith
import Verif.Props.QuadApi
import Verif.Props.ScalarProps

/-!
# C120: any arithmetic expression computes its value
-/

namespace Redox.Props

open Spec

/-- C120, prime fields, without division: for every modulus the expression runs without a panic and returns the canonical element of its
value modulo `p`. -/
theorem C120_prime_ring (p : ℕ) (hp : 1 ≤ p) (env : ℕ → FpElt) (henv : ∀ i, Canon p (env i)) (inv : ZMod p → ZMod p) (e : AExpr)
    (he : e.NoDiv) : Returns p (e.run (Fp.new p) env) (e.value inv fun i => val p (env i)) := by
  haveI : NeZero p := ⟨by omega⟩
  induction e with
  | const n => simp [returns_iff, AExpr.run, AExpr.value, Fp.new]
  | var i => exact ⟨_, rfl, henv i, rfl⟩
  | add a b iha ihb =>
    obtain ⟨x, hx, cx, vx⟩ := iha he.1
    obtain ⟨y, hy, cy, vy⟩ := ihb he.2
    simp only [AExpr.run, AExpr.value, hx, hy, R.ok_bind, ← vx, ← vy]
    exact (C01_ops p hp x y cx cy).1
  | sub a b iha ihb =>
    obtain ⟨x, hx, cx, vx⟩ := iha he.1
    obtain ⟨y, hy, cy, vy⟩ := ihb he.2
    simp only [AExpr.run, AExpr.value, hx, hy, R.ok_bind, ← vx, ← vy]
    exact (C01_ops p hp x y cx cy).2.1
  | mul a b iha ihb =>
    obtain ⟨x, hx, cx, vx⟩ := iha he.1
    obtain ⟨y, hy, cy, vy⟩ := ihb he.2
    simp only [AExpr.run, AExpr.value, hx, hy, R.ok_bind, ← vx, ← vy]
    exact (C01_ops p hp x y cx cy).2.2.1
  | neg a iha =>
    obtain ⟨x, hx, cx, vx⟩ := iha he
    simp only [AExpr.run, AExpr.value, hx, R.ok_bind, ← vx]
    exact (C01_ops p hp x x cx cx).2.2.2.1
  | sq a iha =>
    obtain ⟨x, hx, cx, vx⟩ := iha he
    simp only [AExpr.run, AExpr.value, hx, R.ok_bind, ← vx]
    exact (C01_ops p hp x x cx cx).2.2.2.2.1
  | pow a n iha =>
    obtain ⟨x, hx, cx, vx⟩ := iha he
    simp only [AExpr.run, AExpr.value, hx, R.ok_bind, ← vx]
    exact C05_pow_nat p hp x cx n
  | div a b => exact he.elim
  | inv a => exact he.elim

/-- C120, prime fields of odd order, with division: every expression runs without a panic and returns the canonical element of its value in
the field, where the inverse of zero is zero. -/
theorem C120_prime (p : ℕ) (hp : p.Prime) (h2 : p ≠ 2) (env : ℕ → FpElt) (henv : ∀ i, Canon p (env i)) (e : AExpr) :
    haveI := Fact.mk hp
    Returns p (e.run (Fp.new p) env) (e.value (fun x => x⁻¹) fun i => val p (env i)) := by
  haveI := Fact.mk hp
  haveI : Fact (2 < p) := ⟨by have := hp.two_le; omega⟩
  have h1 : 1 ≤ p := hp.one_lt.le
  induction e with
  | const n => exact C120_prime_ring p h1 env henv _ (.const n) trivial
  | var i => exact ⟨_, rfl, henv i, rfl⟩
  | add a b iha ihb =>
    obtain ⟨x, hx, cx, vx⟩ := iha
    obtain ⟨y, hy, cy, vy⟩ := ihb
    simp only [AExpr.run, AExpr.value, hx, hy, R.ok_bind, ← vx, ← vy]
    exact (C01_ops p h1 x y cx cy).1
  | sub a b iha ihb =>
    obtain ⟨x, hx, cx, vx⟩ := iha
    obtain ⟨y, hy, cy, vy⟩ := ihb
    simp only [AExpr.run, AExpr.value, hx, hy, R.ok_bind, ← vx, ← vy]
    exact (C01_ops p h1 x y cx cy).2.1
  | mul a b iha ihb =>
    obtain ⟨x, hx, cx, vx⟩ := iha
    obtain ⟨y, hy, cy, vy⟩ := ihb
    simp only [AExpr.run, AExpr.value, hx, hy, R.ok_bind, ← vx, ← vy]
    exact (C01_ops p h1 x y cx cy).2.2.1
  | neg a iha =>
    obtain ⟨x, hx, cx, vx⟩ := iha
    simp only [AExpr.run, AExpr.value, hx, R.ok_bind, ← vx]
    exact (C01_ops p h1 x x cx cx).2.2.2.1
  | sq a iha =>
    obtain ⟨x, hx, cx, vx⟩ := iha
    simp only [AExpr.run, AExpr.value, hx, R.ok_bind, ← vx]
    exact (C01_ops p h1 x x cx cx).2.2.2.2.1
  | pow a n iha =>
    obtain ⟨x, hx, cx, vx⟩ := iha
    simp only [AExpr.run, AExpr.value, hx, R.ok_bind, ← vx]
    exact C05_pow_nat p h1 x cx n
  | div a b iha ihb =>
    obtain ⟨x, hx, cx, vx⟩ := iha
    obtain ⟨y, hy, cy, vy⟩ := ihb
    simp only [AExpr.run, AExpr.value, hx, hy, R.ok_bind, ← vx, ← vy]
    obtain ⟨x, rfl⟩ := canon_iff.1 cx
    obtain ⟨y, rfl⟩ := canon_iff.1 cy
    simp [returns_iff, div_el, div_eq_mul_inv]
  | inv a iha =>
    obtain ⟨x, hx, cx, vx⟩ := iha
    simp only [AExpr.run, AExpr.value, hx, R.ok_bind, ← vx]
    obtain ⟨x, rfl⟩ := canon_iff.1 cx
    simp [returns_iff, u32Div_el]

/-- C120, prime fields: two expressions return elements that are `==`, and elements with the same serialisation, exactly if their values are
equal in the field. -/
theorem C120_prime_eq (p : ℕ) (hp : p.Prime) (h2 : p ≠ 2) (env : ℕ → FpElt) (henv : ∀ i, Canon p (env i)) (e e' : AExpr) :
    haveI := Fact.mk hp
    ∃ x y, e.run (Fp.new p) env = R.ok x ∧ e'.run (Fp.new p) env = R.ok y ∧
      (x = y ↔ e.value (fun z : ZMod p => z⁻¹) (fun i => val p (env i)) = e'.value (fun z => z⁻¹) fun i => val p (env i)) ∧
      (x.toBytesBE = y.toBytesBE ↔ x = y) ∧ (x.toBytesLE = y.toBytesLE ↔ x = y) := by
  haveI := Fact.mk hp
  have h1 : 1 ≤ p := hp.one_lt.le
  obtain ⟨x, hx, cx, vx⟩ := C120_prime p hp h2 env henv e
  obtain ⟨y, hy, cy, vy⟩ := C120_prime p hp h2 env henv e'
  obtain ⟨bs, b1, -, -, b2, -, -, b3⟩ := C10_serialize p h1 x cx
  refine ⟨x, y, hx, hy, by rw [← vx, ← vy]; exact (C01_ops p h1 x y cx cy).2.2.2.2.2, ⟨fun h => ?_, fun h => by rw [h]⟩,
    fun h => ?_, fun h => by rw [h]⟩
  · exact (b3 y cy (.inl (h ▸ b1))).symm
  · exact (b3 y cy (.inr (h ▸ b2))).symm

/-- C120, quadratic fields, without division and without powers (C14, C15): the expression runs without a panic and returns the canonical
element of its value in `(ℤ/p)[i]`. -/
theorem C120_quad (p : ℕ) (hp : 1 ≤ p) (env : ℕ → Fp2Elt) (henv : ∀ i, Canon2 p (env i)) (inv : GFp2 p → GFp2 p) (e : AExpr)
    (he : e.NoDiv) (he' : e.NoPow) : Returns2 p (e.run2 (Fp2.new p) env) (e.value inv fun i => val2 p (env i)) := by
  induction e with
  | const n => exact (C13_elt p hp n).1
  | var i => exact ⟨_, rfl, henv i, rfl⟩
  | add a b iha ihb =>
    obtain ⟨x, hx, cx, vx⟩ := iha he.1 he'.1
    obtain ⟨y, hy, cy, vy⟩ := ihb he.2 he'.2
    simp only [AExpr.run2, AExpr.value, hx, hy, R.ok_bind, ← vx, ← vy]
    exact (C13_ring p hp x y cx cy).1
  | sub a b iha ihb =>
    obtain ⟨x, hx, cx, vx⟩ := iha he.1 he'.1
    obtain ⟨y, hy, cy, vy⟩ := ihb he.2 he'.2
    simp only [AExpr.run2, AExpr.value, hx, hy, R.ok_bind, ← vx, ← vy]
    exact (C13_ring p hp x y cx cy).2.1
  | mul a b iha ihb =>
    obtain ⟨x, hx, cx, vx⟩ := iha he.1 he'.1
    obtain ⟨y, hy, cy, vy⟩ := ihb he.2 he'.2
    simp only [AExpr.run2, AExpr.value, hx, hy, R.ok_bind, ← vx, ← vy]
    exact (C13_ring p hp x y cx cy).2.2.1
  | neg a iha =>
    obtain ⟨x, hx, cx, vx⟩ := iha he he'
    simp only [AExpr.run2, AExpr.value, hx, R.ok_bind, ← vx]
    exact (C13_ring p hp x x cx cx).2.2.2.1
  | sq a iha =>
    obtain ⟨x, hx, cx, vx⟩ := iha he he'
    simp only [AExpr.run2, AExpr.value, hx, R.ok_bind, ← vx]
    exact (C13_ring p hp x x cx cx).2.2.2.2.1
  | pow a n => exact he'.elim
  | div a b => exact he.elim
  | inv a => exact he.elim

/-- `z` divided by the sum of the squares of its two coordinates: the inverse of the conjugate of `z`, zero for zero. -/
def conjInv (p : ℕ) [Fact p.Prime] (z : GFp2 p) : GFp2 p :=
  ⟨(z.re * z.re + z.im * z.im)⁻¹ * z.re, (z.re * z.re + z.im * z.im)⁻¹ * z.im⟩

/-- C120, quadratic fields, with division, exactly (C14): the expression runs without a panic, and the value it returns is the one obtained
when every inverse is replaced by the inverse of the conjugate. -/
theorem C120_quad_div (p : ℕ) (hp : p.Prime) (h : p % 4 = 3) (env : ℕ → Fp2Elt) (henv : ∀ i, Canon2 p (env i)) (e : AExpr) (he : e.NoPow) :
    haveI := Fact.mk hp
    Returns2 p (e.run2 (Fp2.new p) env) (e.value (conjInv p) fun i => val2 p (env i)) := by
  haveI := Fact.mk hp
  have h1 : 1 ≤ p := hp.one_lt.le
  induction e with
  | const n => exact (C13_elt p h1 n).1
  | var i => exact ⟨_, rfl, henv i, rfl⟩
  | add a b iha ihb =>
    obtain ⟨x, hx, cx, vx⟩ := iha he.1
    obtain ⟨y, hy, cy, vy⟩ := ihb he.2
    simp only [AExpr.run2, AExpr.value, hx, hy, R.ok_bind, ← vx, ← vy]
    exact (C13_ring p h1 x y cx cy).1
  | sub a b iha ihb =>
    obtain ⟨x, hx, cx, vx⟩ := iha he.1
    obtain ⟨y, hy, cy, vy⟩ := ihb he.2
    simp only [AExpr.run2, AExpr.value, hx, hy, R.ok_bind, ← vx, ← vy]
    exact (C13_ring p h1 x y cx cy).2.1
  | mul a b iha ihb =>
    obtain ⟨x, hx, cx, vx⟩ := iha he.1
    obtain ⟨y, hy, cy, vy⟩ := ihb he.2
    simp only [AExpr.run2, AExpr.value, hx, hy, R.ok_bind, ← vx, ← vy]
    exact (C13_ring p h1 x y cx cy).2.2.1
  | neg a iha =>
    obtain ⟨x, hx, cx, vx⟩ := iha he
    simp only [AExpr.run2, AExpr.value, hx, R.ok_bind, ← vx]
    exact (C13_ring p h1 x x cx cx).2.2.2.1
  | sq a iha =>
    obtain ⟨x, hx, cx, vx⟩ := iha he
    simp only [AExpr.run2, AExpr.value, hx, R.ok_bind, ← vx]
    exact (C13_ring p h1 x x cx cx).2.2.2.2.1
  | pow a n => exact he.elim
  | div a b iha ihb =>
    obtain ⟨x, hx, cx, vx⟩ := iha he.1
    obtain ⟨y, hy, cy, vy⟩ := ihb he.2
    simp only [AExpr.run2, AExpr.value, hx, hy, R.ok_bind, ← vx, ← vy]
    obtain ⟨x, rfl⟩ := canon2_iff.1 cx
    obtain ⟨y, rfl⟩ := canon2_iff.1 cy
    rw [returns2_iff, div_returns p h, val2_el2, val2_el2]
    rfl
  | inv a iha =>
    obtain ⟨x, hx, cx, vx⟩ := iha he
    simp only [AExpr.run2, AExpr.value, hx, R.ok_bind, ← vx]
    obtain ⟨x, rfl⟩ := canon2_iff.1 cx
    rw [returns2_iff, inv_returns p h, val2_el2]
    rfl

/-- C120, quadratic fields, powers (C15): an expression in which `^ &BigUint` occurs anywhere panics. -/
theorem C120_quad_pow (p : ℕ) (hp : p.Prime) (h : p % 4 = 3) (env : ℕ → Fp2Elt) (henv : ∀ i, Canon2 p (env i)) (e : AExpr) (he : ¬ e.NoPow) :
    e.run2 (Fp2.new p) env = R.panic .unimplemented := by
  have two : ∀ (a b : AExpr) (f : Fp2Elt → Fp2Elt → R Fp2Elt), (¬ a.NoPow → a.run2 (Fp2.new p) env = R.panic .unimplemented) →
      (¬ b.NoPow → b.run2 (Fp2.new p) env = R.panic .unimplemented) → ¬ (a.NoPow ∧ b.NoPow) →
      (do f (← a.run2 (Fp2.new p) env) (← b.run2 (Fp2.new p) env)) = R.panic .unimplemented := by
    intro a b f ha hb hab
    by_cases ha' : a.NoPow
    · obtain ⟨x, hx, -, -⟩ := C120_quad_div p hp h env henv a ha'
      rw [hx, hb fun hb' => hab ⟨ha', hb'⟩]
      rfl
    · rw [ha ha']
      rfl
  induction e with
  | const n => exact (he trivial).elim
  | var i => exact (he trivial).elim
  | add a b iha ihb => exact two a b _ iha ihb he
  | sub a b iha ihb => exact two a b _ iha ihb he
  | mul a b iha ihb => exact two a b _ iha ihb he
  | div a b iha ihb => exact two a b _ iha ihb he
  | neg a iha => simp only [AExpr.run2, iha he]; rfl
  | sq a iha => simp only [AExpr.run2, iha he]; rfl
  | inv a iha => simp only [AExpr.run2, iha he]; rfl
  | pow a n iha =>
    by_cases ha : a.NoPow
    · obtain ⟨x, hx, -, -⟩ := C120_quad_div p hp h env henv a ha
      simp only [AExpr.run2, hx, R.ok_bind]
      rfl
    · simp only [AExpr.run2, iha ha]
      rfl

/-! ## Scalars -/

theorem scalar_of_int (r : ℕ) (s : Scalar) (hs : CanonScalar r s) : Scalar.new s.k r = R.ok s := by
  obtain ⟨k, r'⟩ := s
  obtain ⟨h, h0, h1⟩ := hs
  simp only at h h0 h1
  subst h
  rw [scalar_new_eq r (by omega), Int.emod_eq_of_lt h0 h1]

/-- The outcome is a scalar of the order `r`, reduced, whose class is `v`. -/
def ReturnsS (r : ℕ) (x : R Scalar) (v : ZMod r) : Prop := ∃ s, x = R.ok s ∧ CanonScalar r s ∧ (s.k : ZMod r) = v

theorem returnsS_new (r : ℕ) (hr : 1 ≤ r) (n : ℤ) : ReturnsS r (Scalar.new n r) n :=
  ⟨_, scalar_new_eq r hr n, ⟨rfl, Int.emod_nonneg _ (by omega), Int.emod_lt_of_pos _ (by omega)⟩, by simp⟩

theorem canonScalar_eq_iff {r : ℕ} {s t : Scalar} (hs : CanonScalar r s) (ht : CanonScalar r t) :
    s = t ↔ (s.k : ZMod r) = t.k := by
  refine ⟨fun h => by rw [h], fun h => ?_⟩
  obtain ⟨k, r'⟩ := s
  obtain ⟨k', r''⟩ := t
  obtain ⟨h1, h2, h3⟩ := hs
  obtain ⟨h1', h2', h3'⟩ := ht
  simp only at h1 h2 h3 h1' h2' h3' h
  subst h1 h1'
  rw [ZMod.intCast_eq_intCast_iff, Int.ModEq, Int.emod_eq_of_lt h2 h3, Int.emod_eq_of_lt h2' h3'] at h
  rw [h]

theorem returnsS_ops (r : ℕ) (hr : 1 ≤ r) (s t : Scalar) (hs : CanonScalar r s) (ht : CanonScalar r t) :
    ReturnsS r (s.add t) (s.k + t.k) ∧ ReturnsS r (s.sub t) (s.k - t.k) ∧ ReturnsS r (s.mul t) (s.k * t.k) ∧ ReturnsS r s.neg (-s.k) := by
  obtain ⟨x, y, hx, hy, -, -, h1, h2, h3, h4, -⟩ := C19_arith r hr s.k t.k
  rw [scalar_of_int r s hs] at hx
  rw [scalar_of_int r t ht] at hy
  cases hx
  cases hy
  rw [h1, h2, h3, h4]
  refine ⟨?_, ?_, ?_, ?_⟩
  · simpa using returnsS_new r hr (s.k + t.k)
  · simpa using returnsS_new r hr (s.k - t.k)
  · simpa using returnsS_new r hr (s.k * t.k)
  · simpa using returnsS_new r hr (-s.k)

theorem returnsS_div (r : ℕ) (hr : r.Prime) (h2 : r ≠ 2) (s t : Scalar) (hs : CanonScalar r s) (ht : CanonScalar r t) :
    haveI := Fact.mk hr
    ReturnsS r (s.div t) (s.k * (t.k : ZMod r)⁻¹) := by
  haveI := Fact.mk hr
  obtain ⟨h1, -, h3⟩ := C19_div r hr h2 s t hs ht
  by_cases h0 : t.k = 0
  · rw [h3 h0, h0]
    simpa using returnsS_new r hr.one_lt.le 0
  · obtain ⟨q, hq, cq, hm⟩ := h1 h0
    refine ⟨q, hq, cq, ?_⟩
    obtain ⟨s', hs', -, e⟩ := (returnsS_ops r hr.one_lt.le q t cq ht).2.2.1
    rw [hm, R.ok.injEq] at hs'
    subst hs'
    have ht0 : (t.k : ZMod r) ≠ 0 := by
      intro hz
      refine h0 ?_
      rw [ZMod.intCast_zmod_eq_zero_iff_dvd] at hz
      exact Int.eq_zero_of_dvd_of_nonneg_of_lt ht.2.1 ht.2.2 hz
    rw [e, mul_inv_cancel_right₀ ht0]

theorem u32Div_one (s : Scalar) (r : ℕ) (hr : r.Prime) (h2 : r ≠ 2) (hs : CanonScalar r s) :
    haveI := Fact.mk hr
    ReturnsS r (Scalar.u32Div 1 s) ((s.k : ZMod r)⁻¹) := by
  haveI := Fact.mk hr
  obtain ⟨o, ho, co, vo⟩ := returnsS_new r hr.one_lt.le 1
  obtain ⟨q, hq, cq, vq⟩ := returnsS_div r hr h2 o s co hs
  have hd : o.div s = (Scalar.u32Div 1 s >>= fun i => o.mul i) := by simp [Scalar.u32Div, Scalar.div]
  rw [hd] at hq
  obtain ⟨i, hi, hq⟩ := R.bind_eq_ok.1 hq
  have ci : CanonScalar r i := by
    simp only [Scalar.u32Div, beq_self_eq_true, doIfEq_true, Scalar.invMod] at hi
    obtain ⟨v, -, hi⟩ := R.bind_eq_ok.1 hi
    obtain ⟨k, r'⟩ := s
    obtain ⟨h, -, -⟩ := hs
    simp only at h
    subst h
    rw [scalar_red_eq r hr.one_lt.le, R.ok.injEq] at hi
    subst hi
    exact ⟨rfl, Int.emod_nonneg _ (by have := hr.pos; omega), Int.emod_lt_of_pos _ (by have := hr.pos; omega)⟩
  refine ⟨i, hi, ci, ?_⟩
  obtain ⟨m, hm, -, vm⟩ := (returnsS_ops r hr.one_lt.le o i co ci).2.2.1
  rw [hq, R.ok.injEq] at hm
  subst hm
  rw [vq, vo] at vm
  simpa using vm.symm

/-- C120, scalars, without division: for every order the expression runs without a panic and returns the reduced scalar of its value. -/
theorem C120_scalar_ring (r : ℕ) (hr : 1 ≤ r) (env : ℕ → Scalar) (henv : ∀ i, CanonScalar r (env i)) (inv : ZMod r → ZMod r) (e : AExpr)
    (he : e.NoDiv) (he' : e.NoPow ∧ e.NoSq) :
    ∃ s, e.runS r env = R.ok s ∧ CanonScalar r s ∧ (s.k : ZMod r) = e.value inv fun i => ((env i).k : ZMod r) := by
  change ReturnsS r _ _
  induction e with
  | const n => exact returnsS_new r hr n
  | var i => exact ⟨_, rfl, henv i, rfl⟩
  | add a b iha ihb =>
    obtain ⟨x, hx, cx, vx⟩ := iha he.1 ⟨he'.1.1, he'.2.1⟩
    obtain ⟨y, hy, cy, vy⟩ := ihb he.2 ⟨he'.1.2, he'.2.2⟩
    simp only [AExpr.runS, AExpr.value, hx, hy, R.ok_bind, ← vx, ← vy]
    exact (returnsS_ops r hr x y cx cy).1
  | sub a b iha ihb =>
    obtain ⟨x, hx, cx, vx⟩ := iha he.1 ⟨he'.1.1, he'.2.1⟩
    obtain ⟨y, hy, cy, vy⟩ := ihb he.2 ⟨he'.1.2, he'.2.2⟩
    simp only [AExpr.runS, AExpr.value, hx, hy, R.ok_bind, ← vx, ← vy]
    exact (returnsS_ops r hr x y cx cy).2.1
  | mul a b iha ihb =>
    obtain ⟨x, hx, cx, vx⟩ := iha he.1 ⟨he'.1.1, he'.2.1⟩
    obtain ⟨y, hy, cy, vy⟩ := ihb he.2 ⟨he'.1.2, he'.2.2⟩
    simp only [AExpr.runS, AExpr.value, hx, hy, R.ok_bind, ← vx, ← vy]
    exact (returnsS_ops r hr x y cx cy).2.2.1
  | neg a iha =>
    obtain ⟨x, hx, cx, vx⟩ := iha he ⟨he'.1, he'.2⟩
    simp only [AExpr.runS, AExpr.value, hx, R.ok_bind, ← vx]
    exact (returnsS_ops r hr x x cx cx).2.2.2
  | sq a => exact he'.2.elim
  | pow a n => exact he'.1.elim
  | div a b => exact he.elim
  | inv a => exact he.elim

/-- C120, scalars of an odd prime order, with division: every expression runs without a panic and returns the reduced scalar of its value
modulo the order, where the inverse of zero is zero. -/
theorem C120_scalar (r : ℕ) (hr : r.Prime) (h2 : r ≠ 2) (env : ℕ → Scalar) (henv : ∀ i, CanonScalar r (env i)) (e : AExpr)
    (he : e.NoPow ∧ e.NoSq) :
    haveI := Fact.mk hr
    ∃ s, e.runS r env = R.ok s ∧ CanonScalar r s ∧ (s.k : ZMod r) = e.value (fun z => z⁻¹) fun i => ((env i).k : ZMod r) := by
  haveI := Fact.mk hr
  have h1 : 1 ≤ r := hr.one_lt.le
  change ReturnsS r _ _
  induction e with
  | const n => exact returnsS_new r h1 n
  | var i => exact ⟨_, rfl, henv i, rfl⟩
  | add a b iha ihb =>
    obtain ⟨x, hx, cx, vx⟩ := iha ⟨he.1.1, he.2.1⟩
    obtain ⟨y, hy, cy, vy⟩ := ihb ⟨he.1.2, he.2.2⟩
    simp only [AExpr.runS, AExpr.value, hx, hy, R.ok_bind, ← vx, ← vy]
    exact (returnsS_ops r h1 x y cx cy).1
  | sub a b iha ihb =>
    obtain ⟨x, hx, cx, vx⟩ := iha ⟨he.1.1, he.2.1⟩
    obtain ⟨y, hy, cy, vy⟩ := ihb ⟨he.1.2, he.2.2⟩
    simp only [AExpr.runS, AExpr.value, hx, hy, R.ok_bind, ← vx, ← vy]
    exact (returnsS_ops r h1 x y cx cy).2.1
  | mul a b iha ihb =>
    obtain ⟨x, hx, cx, vx⟩ := iha ⟨he.1.1, he.2.1⟩
    obtain ⟨y, hy, cy, vy⟩ := ihb ⟨he.1.2, he.2.2⟩
    simp only [AExpr.runS, AExpr.value, hx, hy, R.ok_bind, ← vx, ← vy]
    exact (returnsS_ops r h1 x y cx cy).2.2.1
  | neg a iha =>
    obtain ⟨x, hx, cx, vx⟩ := iha ⟨he.1, he.2⟩
    simp only [AExpr.runS, AExpr.value, hx, R.ok_bind, ← vx]
    exact (returnsS_ops r h1 x x cx cx).2.2.2
  | sq a => exact he.2.elim
  | pow a n => exact he.1.elim
  | div a b iha ihb =>
    obtain ⟨x, hx, cx, vx⟩ := iha ⟨he.1.1, he.2.1⟩
    obtain ⟨y, hy, cy, vy⟩ := ihb ⟨he.1.2, he.2.2⟩
    simp only [AExpr.runS, AExpr.value, hx, hy, R.ok_bind, ← vx, ← vy]
    exact returnsS_div r hr h2 x y cx cy
  | inv a iha =>
    obtain ⟨x, hx, cx, vx⟩ := iha ⟨he.1, he.2⟩
    simp only [AExpr.runS, AExpr.value, hx, R.ok_bind, ← vx]
    exact u32Div_one x r hr h2 cx

/-- C120, scalars: two expressions return scalars that are `==`, and scalars with the same serialisation, exactly if their values are
equal modulo the order. -/
theorem C120_scalar_eq (r : ℕ) (hr : r.Prime) (h2 : r ≠ 2) (env : ℕ → Scalar) (henv : ∀ i, CanonScalar r (env i)) (e e' : AExpr)
    (he : e.NoPow ∧ e.NoSq) (he' : e'.NoPow ∧ e'.NoSq) :
    haveI := Fact.mk hr
    ∃ s t, e.runS r env = R.ok s ∧ e'.runS r env = R.ok t ∧
      (s = t ↔ e.value (fun z : ZMod r => z⁻¹) (fun i => ((env i).k : ZMod r)) = e'.value (fun z => z⁻¹) fun i => ((env i).k : ZMod r)) ∧
      (s.toBytesBE = t.toBytesBE ↔ s = t) := by
  haveI := Fact.mk hr
  obtain ⟨s, hs, cs, vs⟩ := C120_scalar r hr h2 env henv e he
  obtain ⟨t, ht, ct, vt⟩ := C120_scalar r hr h2 env henv e' he'
  obtain ⟨bs, b1, -, -, -, -, b3⟩ := C21_serialize r hr.one_lt.le s cs
  refine ⟨s, t, hs, ht, by rw [← vs, ← vt]; exact canonScalar_eq_iff cs ct, ⟨fun h => ?_, fun h => by rw [h]⟩⟩
  exact (b3 t ct (h ▸ b1)).symm

/-! ## Concrete cases -/

/-- `(x - 1) (x + 1) / y ^ 3 - 1 / (x ^ 2u32)` with `x = 3`, `y = 5` in GF(7): the hypotheses hold and the value is `8 / 125 - 1 / 9 = 2`. -/
def sampleExpr : AExpr :=
  .sub (.div (.mul (.sub (.var 0) (.const 1)) (.add (.var 0) (.const 1))) (.pow (.var 1) 3)) (.inv (.sq (.var 0)))

example : (∀ i, Canon 7 (if i = 0 then (⟨3, ⟨7⟩⟩ : FpElt) else ⟨5, ⟨7⟩⟩)) ∧
    sampleExpr.run (Fp.new 7) (fun i => if i = 0 then ⟨3, ⟨7⟩⟩ else ⟨5, ⟨7⟩⟩) = R.ok ⟨2, ⟨7⟩⟩ := by
  refine ⟨fun i => ?_, by decide +kernel⟩
  split <;> exact ⟨rfl, by decide, by decide⟩

/-- `(x - 1) / (y + 2)` on scalars of order 7: `2 / 0 = 0`; and `1 / y - x = 0` for `x = 3`, `y = 5`. -/
example : (AExpr.div (.sub (.var 0) (.const 1)) (.add (.var 1) (.const 2))).runS 7 (fun i => if i = 0 then ⟨3, 7⟩ else ⟨5, 7⟩) = R.ok ⟨0, 7⟩ ∧
    (AExpr.sub (.inv (.var 1)) (.var 0)).runS 7 (fun i => if i = 0 then ⟨3, 7⟩ else ⟨5, 7⟩) = R.ok ⟨0, 7⟩ ∧
    (AExpr.sub (.inv (.var 1)) (.var 0)).NoPow ∧ (AExpr.sub (.inv (.var 1)) (.var 0)).NoSq := by
  refine ⟨by decide +kernel, by decide +kernel, ⟨trivial, trivial⟩, ⟨trivial, trivial⟩⟩

/-- `(x + i)^2 - x` in `(ℤ/7)[i]` with `x = 2 + 3 i`: `(2 + 4 i)^2 - (2 + 3 i) = 0 - 1 i`. -/
example : (AExpr.sub (.sq (.add (.var 0) (.var 1))) (.var 0)).run2 (Fp2.new 7)
      (fun i => if i = 0 then ⟨⟨2, ⟨7⟩⟩, ⟨3, ⟨7⟩⟩, ⟨⟨7⟩⟩⟩ else ⟨⟨0, ⟨7⟩⟩, ⟨1, ⟨7⟩⟩, ⟨⟨7⟩⟩⟩) =
    R.ok ⟨⟨0, ⟨7⟩⟩, ⟨6, ⟨7⟩⟩, ⟨⟨7⟩⟩⟩ := by decide +kernel

/-- `1 / i` in `(ℤ/7)[i]` is `i`, the inverse of the conjugate, and `i ^ 1 + 1` panics. -/
example : (AExpr.inv (.var 0)).run2 (Fp2.new 7) (fun _ => ⟨⟨0, ⟨7⟩⟩, ⟨1, ⟨7⟩⟩, ⟨⟨7⟩⟩⟩) = R.ok ⟨⟨0, ⟨7⟩⟩, ⟨1, ⟨7⟩⟩, ⟨⟨7⟩⟩⟩ ∧
    (AExpr.add (.pow (.var 0) 1) (.const 1)).run2 (Fp2.new 7) (fun _ => ⟨⟨0, ⟨7⟩⟩, ⟨1, ⟨7⟩⟩, ⟨⟨7⟩⟩⟩) = R.panic .unimplemented ∧
    ¬ (AExpr.add (.pow (.var 0) 1) (.const 1)).NoPow ∧ Nat.Prime 7 := by
  refine ⟨by decide +kernel, by decide +kernel, fun h => h.1, by norm_num⟩

end Redox.Props
