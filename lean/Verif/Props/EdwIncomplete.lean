import Verif.Props.EdwPoints

/-!
# C54 and C85: Edwards curves with arbitrary coefficients
-/

namespace Redox.Props.Ed

open Spec Edwards ELink Edw

section
variable {F : Type*} [CommRing F]

/-- The extended addition formulas stay on the curve, for all coefficients and all coordinates. -/
theorem sum_onCurve {a d x1 y1 t1 z1 x2 y2 t2 z2 : F} (h1 : a * x1 ^ 2 + y1 ^ 2 = d * t1 ^ 2 + z1 ^ 2)
    (g1 : x1 * y1 = t1 * z1) (h2 : a * x2 ^ 2 + y2 ^ 2 = d * t2 ^ 2 + z2 ^ 2) (g2 : x2 * y2 = t2 * z2) :
    a * ((x1 * y2 + y1 * x2) * (z1 * z2 - d * t1 * t2)) ^ 2 + ((z1 * z2 + d * t1 * t2) * (y1 * y2 - a * x1 * x2)) ^ 2 =
      d * ((x1 * y2 + y1 * x2) * (y1 * y2 - a * x1 * x2)) ^ 2 + ((z1 * z2 - d * t1 * t2) * (z1 * z2 + d * t1 * t2)) ^ 2 := by
  have e1 : a * (x1 * y2 + y1 * x2) ^ 2 + (y1 * y2 - a * x1 * x2) ^ 2 = (d * t1 ^ 2 + z1 ^ 2) * (d * t2 ^ 2 + z2 ^ 2) := by
    rw [← h1, ← h2]; ring
  have e2 : (y1 * y2 - a * x1 * x2) ^ 2 - a * (x1 * y2 + y1 * x2) ^ 2 =
      (y1 ^ 2 - a * x1 ^ 2) * (y2 ^ 2 - a * x2 ^ 2) - 4 * a * (t1 * z1) * (t2 * z2) := by
    rw [← g1, ← g2]; ring
  have e3 : (x1 * y2 + y1 * x2) * (y1 * y2 - a * x1 * x2) =
      t1 * z1 * (y2 ^ 2 - a * x2 ^ 2) + t2 * z2 * (y1 ^ 2 - a * x1 ^ 2) := by
    rw [← g1, ← g2]; ring
  have w1 : (y1 ^ 2 - a * x1 ^ 2) ^ 2 = (d * t1 ^ 2 + z1 ^ 2) ^ 2 - 4 * a * (t1 * z1) ^ 2 := by
    rw [← h1, ← g1]; ring
  have w2 : (y2 ^ 2 - a * x2 ^ 2) ^ 2 = (d * t2 ^ 2 + z2 ^ 2) ^ 2 - 4 * a * (t2 * z2) ^ 2 := by
    rw [← h2, ← g2]; ring
  have e4 : ((x1 * y2 + y1 * x2) * (y1 * y2 - a * x1 * x2)) ^ 2 =
      (t1 * z1 * (y2 ^ 2 - a * x2 ^ 2) + t2 * z2 * (y1 ^ 2 - a * x1 ^ 2)) ^ 2 := by rw [e3]
  linear_combination ((z1 * z2) ^ 2 + (d * t1 * t2) ^ 2) * e1 + 2 * (z1 * z2) * (d * t1 * t2) * e2 - d * e4 -
    d * (t1 * z1) ^ 2 * w2 - d * (t2 * z2) ^ 2 * w1

end

section
variable {p : ℕ} [Fact p.Prime] {e : Curve}

theorem newProyPoint_onCurve (he : EParams p e) {x y t z : ZMod p} {S : Point}
    (h : e.newProyPoint ⟨el x, el y, el t, el z⟩ = R.ok S) :
    S = pt e x y t z ∧ OnCurve (val p e.a) (val p e.d) x y t z := by
  rw [newProyPoint_pt (ea he) (ed he)] at h
  split_ifs at h with h0
  rw [R.ok.injEq] at h
  exact ⟨h.symm, h0⟩

/-- A point of the curve, in extended coordinates, points at infinity and `(0 : 0 : 0 : 0)` included. -/
def OnE (p : ℕ) [Fact p.Prime] (e : Curve) (P : Point) : Prop :=
  ∃ x y t z : ZMod p, P = pt e x y t z ∧ OnCurve (val p e.a) (val p e.d) x y t z

/-- The same without the equations. -/
def RedE (p : ℕ) [Fact p.Prime] (e : Curve) (P : Point) : Prop := ∃ x y t z : ZMod p, P = pt e x y t z

theorem OnE.red {P : Point} (h : OnE p e P) : RedE p e P := by
  obtain ⟨x, y, t, z, h, -⟩ := h
  exact ⟨x, y, t, z, h⟩

theorem neg_onE (he : EParams p e) {P S : Point} (hP : RedE p e P) (h : P.neg = R.ok S) : OnE p e S := by
  obtain ⟨x, y, t, z, rfl⟩ := hP
  simp only [Point.neg, pt, neg_el, R.ok_bind] at h
  exact ⟨_, _, _, _, newProyPoint_onCurve he h⟩

theorem add_onE (he : EParams p e) {P Q S : Point} (hP : RedE p e P) (hQ : RedE p e Q) (h : P.add Q = R.ok S) :
    OnE p e S := by
  obtain ⟨x, y, t, z, rfl⟩ := hP
  obtain ⟨x', y', t', z', rfl⟩ := hQ
  rw [Point.add, doIfEq] at h
  split_ifs at h
  rw [Point.coreAdd, coreAddCoords_pt (ea he) (ed he), R.ok_bind] at h
  exact ⟨_, _, _, _, newProyPoint_onCurve he h⟩

theorem identity_onE (he : EParams p e) {S : Point} (h : e.identity = R.ok S) : OnE p e S := by
  rw [identity_pt he, R.ok.injEq] at h
  exact ⟨0, 1, 0, 1, h.symm, by ring, by ring⟩

theorem mulLoop_onE (he : EParams p e) {P : Point} (hP : RedE p e P) :
    ∀ (bits : List Bool) (Q S : Point), OnE p e Q → P.mulLoop bits Q = R.ok S → OnE p e S := by
  intro bits
  induction bits with
  | nil => intro Q S hQ h; simp only [Point.mulLoop, R.ok.injEq] at h; exact h ▸ hQ
  | cons k bits ih =>
    intro Q S hQ h
    rw [Point.mulLoop] at h
    obtain ⟨D, hD, h⟩ := R.bind_eq_ok.1 h
    have hDg := add_onE he hQ.red hQ.red hD
    cases k with
    | false => exact ih D S hDg (by simpa using h)
    | true =>
      simp only [if_true] at h
      obtain ⟨T, hT, h⟩ := R.bind_eq_ok.1 h
      exact ih T S (add_onE he hDg.red hP hT) h

theorem mul_onE (he : EParams p e) {prof : Profile} {P S : Point} {k : Scalar} (hP : RedE p e P)
    (h : P.mul prof k = R.ok S) : OnE p e S := by
  have hPe : P.e = e := by obtain ⟨x, y, t, z, rfl⟩ := hP; rfl
  rw [Point.mul, doIfEq] at h
  split_ifs at h
  obtain ⟨Q, hQ, h⟩ := R.bind_eq_ok.1 h
  obtain ⟨bits, _, h⟩ := R.bind_eq_ok.1 h
  exact mulLoop_onE he hP bits Q S (identity_onE he (hPe ▸ hQ)) h

theorem newPoint_onE (he : EParams p e) {x y : ZMod p} {P : Point} (h : e.newPoint (el x) (el y) = R.ok P) :
    OnE p e P := by
  rw [newPoint_pt he] at h
  split_ifs at h with h0
  rw [R.ok.injEq] at h
  exact ⟨x, y, _, 1, h.symm, by linear_combination h0, by ring⟩

theorem EBuilt.cases_any (he : EParams p e) {P : Point} (h : EBuilt p e P) : RedE p e P ∧ (OnE p e P ∨
    (P.normalize = R.ok P ∧ ∃ Q, EBuilt p e Q ∧ OnE p e Q ∧ Q.c.z.isZero = true ∧ Q.normalize = R.ok P)) := by
  have good : ∀ {S : Point}, OnE p e S → RedE p e S ∧ (OnE p e S ∨
      (S.normalize = R.ok S ∧ ∃ Q, EBuilt p e Q ∧ OnE p e Q ∧ Q.c.z.isZero = true ∧ Q.normalize = R.ok S)) :=
    fun h => ⟨h.red, .inl h⟩
  induction h with
  | newPoint hx hy h =>
    obtain ⟨x, rfl⟩ := canon_iff.1 hx
    obtain ⟨y, rfl⟩ := canon_iff.1 hy
    exact good (newPoint_onE he h)
  | identity h => exact good (identity_onE he h)
  | generator hx hy h =>
    obtain ⟨x, hx⟩ := canon_iff.1 hx
    obtain ⟨y, hy⟩ := canon_iff.1 hy
    rw [Curve.getGenerator, he.field, one_eq, hx, hy, R.fmul_ok, mul_el, R.ok_bind, R.ok_bind] at h
    exact good ⟨_, _, _, _, newProyPoint_onCurve he h⟩
  | decode h =>
    obtain ⟨x, y, h⟩ := decode_newPoint he h
    exact good (newPoint_onE he h)
  | neg _ h ih => exact good (neg_onE he ih.1 h)
  | add _ _ h ih1 ih2 => exact good (add_onE he ih1.1 ih2.1 h)
  | sub _ _ h ih1 ih2 =>
    obtain ⟨N, hN, h⟩ := R.bind_eq_ok.1 h
    exact good (add_onE he ih1.1 (neg_onE he ih2.1 hN).red h)
  | mul _ h ih => exact good (mul_onE he ih.1 h)
  | @normalize P S hb h ih =>
    obtain ⟨hr, hon | ⟨hn, ih⟩⟩ := ih
    · obtain ⟨x, y, t, z, rfl, h1, h2⟩ := hon
      have h' := h
      rw [ELink.normalize_pt he, R.ok.injEq] at h
      subst h
      refine ⟨⟨_, _, _, _, rfl⟩, ?_⟩
      by_cases hz : z = 0
      · subst hz
        refine .inr ⟨?_, _, hb, ⟨_, _, _, _, rfl, h1, h2⟩, by simp [pt], h'⟩
        rw [ELink.normalize_pt he]; simp
      · refine .inl ⟨_, _, _, _, rfl, ?_, by ring⟩
        have h3 : t = x * y / z := by rw [eq_div_iff hz, h2]
        rw [h3] at h1
        field_simp at h1 ⊢
        linear_combination h1
    · rw [hn, R.ok.injEq] at h
      subst h
      exact ⟨hr, .inr ⟨hn, ih⟩⟩

theorem onE_iff (he : EParams p e) {P : Point} : OnE p e P ↔
    P.e = e ∧ Canon p P.c.x ∧ Canon p P.c.y ∧ Canon p P.c.t ∧ Canon p P.c.z ∧ e.isOnCurve P = R.ok true := by
  constructor
  · rintro ⟨x, y, t, z, rfl, h⟩
    refine ⟨rfl, canon_el x, canon_el y, canon_el t, canon_el z, ?_⟩
    rw [isOnCurve_pt (ea he) (ed he), decide_eq_true h]
  · obtain ⟨e', ⟨x, y, t, z⟩⟩ := P
    rintro ⟨he', hx, hy, ht, hz, h⟩
    obtain rfl : e' = e := he'
    obtain ⟨x, rfl⟩ := canon_iff.1 hx
    obtain ⟨y, rfl⟩ := canon_iff.1 hy
    obtain ⟨t, rfl⟩ := canon_iff.1 ht
    obtain ⟨z, rfl⟩ := canon_iff.1 hz
    change e'.isOnCurve (pt e' x y t z) = _ at h
    rw [isOnCurve_pt (ea he) (ed he), R.ok.injEq, decide_eq_true_eq] at h
    exact ⟨x, y, t, z, rfl, h⟩

theorem add_ex (he : EParams p e) {P Q : Point} (hP : OnE p e P) (hQ : OnE p e Q) : ∃ S, P.add Q = R.ok S ∧ OnE p e S := by
  obtain ⟨x, y, t, z, rfl, h1, h2⟩ := hP
  obtain ⟨x', y', t', z', rfl, h3, h4⟩ := hQ
  have hon : OnCurve (val p e.a) (val p e.d) _ _ _ _ := ⟨sum_onCurve h1 h2 h3 h4, by ring⟩
  refine ⟨_, ?_, ⟨_, _, _, _, rfl, hon⟩⟩
  rw [Point.add, doIfEq, if_pos (by simp [pt]), Point.coreAdd, coreAddCoords_pt (ea he) (ed he), R.ok_bind]
  change e.newProyPoint _ = _
  rw [newProyPoint_pt (ea he) (ed he), if_pos hon]

theorem neg_ex (he : EParams p e) {P : Point} (hP : OnE p e P) : ∃ S, P.neg = R.ok S ∧ OnE p e S := by
  obtain ⟨x, y, t, z, rfl, h1, h2⟩ := hP
  have hon : OnCurve (val p e.a) (val p e.d) (-x) y (-t) z := ⟨by linear_combination h1, by linear_combination -h2⟩
  refine ⟨_, ?_, ⟨_, _, _, _, rfl, hon⟩⟩
  simp only [Point.neg, pt, neg_el, R.ok_bind]
  rw [newProyPoint_pt (ea he) (ed he), if_pos hon, pt]

theorem mulLoop_ex (he : EParams p e) {P : Point} (hP : OnE p e P) :
    ∀ (bits : List Bool) (Q : Point), OnE p e Q → ∃ S, P.mulLoop bits Q = R.ok S ∧ OnE p e S := by
  intro bits
  induction bits with
  | nil => intro Q hQ; exact ⟨Q, rfl, hQ⟩
  | cons k bits ih =>
    intro Q hQ
    obtain ⟨D, hD, hDo⟩ := add_ex he hQ hQ
    rw [Point.mulLoop, hD, R.ok_bind]
    cases k with
    | false => simpa using ih D hDo
    | true =>
      obtain ⟨T, hT, hTo⟩ := add_ex he hDo hP
      simpa [hT] using ih T hTo

theorem mul_ex (he : EParams p e) (hr : Big.bits e.r < usizeMod) {P : Point} (hP : OnE p e P) (prof : Profile) (k : Scalar)
    (hk : CanonScalar e.r k) (h0 : k.k ≠ 0 ∨ prof = .release) : ∃ S, P.mul prof k = R.ok S ∧ OnE p e S := by
  obtain ⟨kk, kr⟩ := k
  obtain ⟨hkr, hk0, hk1⟩ := hk
  simp only at hkr hk0 hk1 h0 ⊢
  subst hkr
  obtain ⟨n, rfl⟩ := Int.eq_ofNat_of_zero_le hk0
  have hPe : P.e = e := ((onE_iff he).1 hP).1
  have hI := identity_pt he
  have hId : OnE p e (pt e (0 : ZMod p) 1 0 1) := ⟨0, 1, 0, 1, rfl, by ring, by ring⟩
  rw [Point.mul, hPe, beq_self_eq_true, doIfEq_true, Point.coreMul, hPe, hI, R.ok_bind]
  by_cases hn : n = 0
  · subst hn
    obtain rfl : prof = .release := by simpa using h0
    have := iterLR_zero_release (e.r : ℤ)
    simp only [Nat.cast_zero, this, R.ok_bind, Point.mulLoop]
    exact ⟨_, rfl, hId⟩
  · have hbl : Big.bits n < usizeMod := lt_of_le_of_lt (Big.bits_mono (by omega)) hr
    rw [iterLR_eq prof _ hn hbl, R.ok_bind]
    exact mulLoop_ex he hP _ _ hId

end

section
variable (p : ℕ) [Fact p.Prime] (e : Curve)

/-- C54, histories, for arbitrary coefficients: whatever sequence of operations produced a point, it belongs to the curve, has reduced
coordinates and passes `is_on_curve`, unless it comes directly from `normalize` of a point at infinity. Partial: on complete curves there
is no point at infinity (`C54_history`); on others see `C54_refuted_normalize`. -/
theorem _root_.Redox.Props.C54_history_any_partial (he : EParams p e) (P : Point) (h : EBuilt p e P) :
    P.e = e ∧ Canon p P.c.x ∧ Canon p P.c.y ∧ Canon p P.c.t ∧ Canon p P.c.z ∧
    (e.isOnCurve P = R.ok true ∨ ∃ Q, EBuilt p e Q ∧ e.isOnCurve Q = R.ok true ∧ Q.c.z.isZero = true ∧ Q.normalize = R.ok P) := by
  obtain ⟨⟨x, y, t, z, rfl⟩, h⟩ := h.cases_any he
  refine ⟨rfl, canon_el x, canon_el y, canon_el t, canon_el z, ?_⟩
  rcases h with h | ⟨-, Q, hQ, hon, hz, hn⟩
  · exact .inl ((onE_iff he).1 h).2.2.2.2.2
  · exact .inr ⟨Q, hQ, ((onE_iff he).1 hon).2.2.2.2.2, hz, hn⟩

/-- C85. Arbitrary coefficients: the sum of two points in any extended coordinates never panics, nor do difference, negation and
multiplication by a scalar, and the result is on the curve. -/
theorem _root_.Redox.Props.C85_total (he : EParams p e) (P Q : Point) (hP : P.e = e) (hx : Canon p P.c.x) (hy : Canon p P.c.y)
    (ht : Canon p P.c.t) (hz : Canon p P.c.z) (hP1 : e.isOnCurve P = R.ok true) (hQ : Q.e = e) (hx' : Canon p Q.c.x)
    (hy' : Canon p Q.c.y) (ht' : Canon p Q.c.t) (hz' : Canon p Q.c.z) (hQ1 : e.isOnCurve Q = R.ok true) :
    (∃ S, P.add Q = R.ok S ∧ e.isOnCurve S = R.ok true) ∧ (∃ S, P.sub Q = R.ok S ∧ e.isOnCurve S = R.ok true) ∧
    (∃ S, P.neg = R.ok S ∧ e.isOnCurve S = R.ok true) ∧
    (Big.bits e.r < usizeMod → ∀ prof k, CanonScalar e.r k → (k.k ≠ 0 ∨ prof = .release) →
      ∃ S, P.mul prof k = R.ok S ∧ e.isOnCurve S = R.ok true) := by
  have h1 := (onE_iff he).2 ⟨hP, hx, hy, ht, hz, hP1⟩
  have h2 := (onE_iff he).2 ⟨hQ, hx', hy', ht', hz', hQ1⟩
  have fin : ∀ {r : R Point}, (∃ S, r = R.ok S ∧ OnE p e S) → ∃ S, r = R.ok S ∧ e.isOnCurve S = R.ok true :=
    fun ⟨S, hS, ho⟩ => ⟨S, hS, ((onE_iff he).1 ho).2.2.2.2.2⟩
  refine ⟨fin (add_ex he h1 h2), fin ?_, fin (neg_ex he h1), fun hr prof k hk h0 => fin (mul_ex he hr h1 prof k hk h0)⟩
  obtain ⟨N, hN, ho⟩ := neg_ex he h2
  rw [Point.sub, hN, R.ok_bind]
  exact add_ex he h1 ho

/-- C85, exact outcome of the addition of two points, for arbitrary coefficients. With `k = d x₁ x₂ y₁ y₂`, the sum is the affine Edwards
sum if `k² ≠ 1`; otherwise the returned value has `z = 0` and stands for no point. Partial: see `C85_refuted`. -/
theorem _root_.Redox.Props.C85_add_partial (he : EParams p e) (P Q : Point) (A B : eGroup p e) (hP : EDenotes p e P A)
    (hQ : EDenotes p e Q B) : ∃ S, P.add Q = R.ok S ∧
    ((val p e.d * A.x * B.x * A.y * B.y) ^ 2 ≠ 1 → ∃ C : eGroup p e, EDenotes p e S C ∧
      C.x = (A.x * B.y + A.y * B.x) / (1 + val p e.d * A.x * B.x * A.y * B.y) ∧
      C.y = (A.y * B.y - val p e.a * A.x * B.x) / (1 - val p e.d * A.x * B.x * A.y * B.y)) ∧
    ((val p e.d * A.x * B.x * A.y * B.y) ^ 2 = 1 → S.c.z.isZero = true ∧ ¬ ∃ C, EDenotes p e S C) := by
  obtain ⟨x, y, t, z, rfl, hr⟩ := denotes_iff.1 hP
  obtain ⟨x', y', t', z', rfl, hr'⟩ := denotes_iff.1 hQ
  have h1 := hr.onCurve
  have h2 := hr'.onCurve
  have hon : OnCurve (val p e.a) (val p e.d) _ _ _ _ := ⟨sum_onCurve h1.1 h1.2 h2.1 h2.2, by ring⟩
  obtain ⟨hz, rfl, rfl, rfl⟩ := hr
  obtain ⟨hz', rfl, rfl, rfl⟩ := hr'
  obtain ⟨ax, ay, hA⟩ := A
  obtain ⟨bx, bY, hB⟩ := B
  simp only at hon h1 h2 hP hQ ⊢
  refine ⟨_, (by
    rw [Point.add, doIfEq, if_pos (by simp [pt]), Point.coreAdd, coreAddCoords_pt (ea he) (ed he), R.ok_bind]
    change e.newProyPoint _ = _
    rw [newProyPoint_pt (ea he) (ed he), if_pos hon]), fun hk => ?_, fun hk => ?_⟩
  · have hm : 1 - val p e.d * ax * bx * ay * bY ≠ 0 := fun h => hk (by linear_combination (-1 - val p e.d * ax * bx * ay * bY) * h)
    have hq : 1 + val p e.d * ax * bx * ay * bY ≠ 0 := fun h => hk (by linear_combination (val p e.d * ax * bx * ay * bY - 1) * h)
    have hz3 : (z * z' - val p e.d * (ax * ay * z) * (bx * bY * z')) * (z * z' + val p e.d * (ax * ay * z) * (bx * bY * z')) ≠ 0 := by
      have : (z * z' - val p e.d * (ax * ay * z) * (bx * bY * z')) * (z * z' + val p e.d * (ax * ay * z) * (bx * bY * z')) =
          (z * z') ^ 2 * ((1 - val p e.d * ax * bx * ay * bY) * (1 + val p e.d * ax * bx * ay * bY)) := by ring
      rw [this]
      exact mul_ne_zero (pow_ne_zero 2 (mul_ne_zero hz hz')) (mul_ne_zero hm hq)
    obtain ⟨C, hC⟩ := exists_rep hon hz3
    refine ⟨C, denotes_iff.2 ⟨_, _, _, _, rfl, hC⟩, ?_, ?_⟩
    · rw [eq_div_iff hq]
      apply mul_left_cancel₀ (mul_ne_zero (pow_ne_zero 2 (mul_ne_zero hz hz')) hm)
      linear_combination -hC.2.1
    · rw [eq_div_iff hm]
      apply mul_left_cancel₀ (mul_ne_zero (pow_ne_zero 2 (mul_ne_zero hz hz')) hq)
      linear_combination -hC.2.2.1
  · have hz0 : (z * z' - val p e.d * (ax * ay * z) * (bx * bY * z')) * (z * z' + val p e.d * (ax * ay * z) * (bx * bY * z')) = 0 := by
      linear_combination -(z * z') ^ 2 * hk
    constructor
    · exact (isZero_el_iff _).2 hz0
    · rintro ⟨C, hC⟩
      refine hC.2.2.2.2.2.1 ?_
      rw [hz0]; exact val_el 0

end

/-- `x² + y² = 1 + 4 x² y²` over GF(11); `4` is a square, so the curve is not complete. `(2, 3)` is on it. -/
def toySq : Curve := ⟨⟨11⟩, ⟨1, ⟨11⟩⟩, ⟨4, ⟨11⟩⟩, 8, ⟨2, ⟨11⟩⟩, ⟨3, ⟨11⟩⟩, 1⟩

/-- `x² + y² = 1 + 3 x² y²` over GF(11); `3 = 5²`. `(4, 4)` and `(5, 5)` are on it. -/
def toySq3 : Curve := ⟨⟨11⟩, ⟨1, ⟨11⟩⟩, ⟨3, ⟨11⟩⟩, 8, ⟨4, ⟨11⟩⟩, ⟨4, ⟨11⟩⟩, 1⟩

instance fact11 : Fact (Nat.Prime 11) := ⟨by norm_num⟩

theorem toySq_params : EParams 11 toySq := ⟨by norm_num, by norm_num, rfl, ⟨rfl, by decide, by decide⟩, ⟨rfl, by decide, by decide⟩⟩

theorem toySq3_params : EParams 11 toySq3 := ⟨by norm_num, by norm_num, rfl, ⟨rfl, by decide, by decide⟩, ⟨rfl, by decide, by decide⟩⟩

/-- C54 is refuted for curves with square `d`: the double of the generator is at infinity, and its `normalize` is a point, obtained
without a panic, that `is_on_curve` rejects. -/
theorem _root_.Redox.Props.C54_refuted_normalize : EParams 11 toySq ∧ ∃ P, EBuilt 11 toySq P ∧ toySq.isOnCurve P = R.ok false := by
  refine ⟨toySq_params, ⟨toySq, ⟨⟨0, ⟨11⟩⟩, ⟨0, ⟨11⟩⟩, ⟨0, ⟨11⟩⟩, ⟨1, ⟨11⟩⟩⟩⟩, ?_, by decide +kernel⟩
  have hG : EBuilt 11 toySq ⟨toySq, ⟨⟨2, ⟨11⟩⟩, ⟨3, ⟨11⟩⟩, ⟨6, ⟨11⟩⟩, ⟨1, ⟨11⟩⟩⟩⟩ :=
    .generator ⟨rfl, by decide, by decide⟩ ⟨rfl, by decide, by decide⟩ (by decide +kernel)
  have hD : EBuilt 11 toySq ⟨toySq, ⟨⟨0, ⟨11⟩⟩, ⟨10, ⟨11⟩⟩, ⟨5, ⟨11⟩⟩, ⟨0, ⟨11⟩⟩⟩⟩ :=
    .add hG hG (by decide +kernel)
  exact .normalize hD (by decide +kernel)

/-- C85 is refuted on a curve with square `d`: the sum of `(4, 4)` and `(5, 5)` stands for no point and compares equal with every point
of the curve, although the points themselves differ. -/
theorem _root_.Redox.Props.C85_refuted : EParams 11 toySq3 ∧
    ∃ P Q S, toySq3.newPoint ⟨4, ⟨11⟩⟩ ⟨4, ⟨11⟩⟩ = R.ok P ∧ toySq3.newPoint ⟨5, ⟨11⟩⟩ ⟨5, ⟨11⟩⟩ = R.ok Q ∧ P.add Q = R.ok S ∧
      P.eq Q = R.ok false ∧ ∀ (T : Point) (C : eGroup 11 toySq3), EDenotes 11 toySq3 T C → S.eq T = R.ok true := by
  refine ⟨toySq3_params, ⟨toySq3, ⟨⟨4, ⟨11⟩⟩, ⟨4, ⟨11⟩⟩, ⟨5, ⟨11⟩⟩, ⟨1, ⟨11⟩⟩⟩⟩, ⟨toySq3, ⟨⟨5, ⟨11⟩⟩, ⟨5, ⟨11⟩⟩, ⟨3, ⟨11⟩⟩, ⟨1, ⟨11⟩⟩⟩⟩,
    ⟨toySq3, ⟨⟨0, ⟨11⟩⟩, ⟨0, ⟨11⟩⟩, ⟨0, ⟨11⟩⟩, ⟨0, ⟨11⟩⟩⟩⟩, by decide +kernel, by decide +kernel, by decide +kernel, by decide +kernel, ?_⟩
  intro T C hT
  obtain ⟨x, y, t, z, rfl, -⟩ := denotes_iff.1 hT
  have h := eq_pt toySq3 toySq3 (0 : ZMod 11) 0 0 0 x y t z
  have h0 : (el (0 : ZMod 11)) = ⟨0, ⟨11⟩⟩ := by decide
  simpa [h0, pt] using h

/-- The hypotheses are met on both sides of the case distinction: on the curve with `d = 4` the doubling of `(2, 3)` has `k² = 1`, the sum
of `(2, 3)` and `(1, 0)` has `k² ≠ 1`. The doubled generator is a point at infinity, whose multiples are still computed. -/
example : EDenotes 11 toySq ⟨toySq, ⟨⟨2, ⟨11⟩⟩, ⟨3, ⟨11⟩⟩, ⟨6, ⟨11⟩⟩, ⟨1, ⟨11⟩⟩⟩⟩ ⟨2, 3, by decide⟩ ∧
    EDenotes 11 toySq ⟨toySq, ⟨⟨1, ⟨11⟩⟩, ⟨0, ⟨11⟩⟩, ⟨0, ⟨11⟩⟩, ⟨1, ⟨11⟩⟩⟩⟩ ⟨1, 0, by decide⟩ ∧
    (val 11 toySq.d * 2 * 2 * 3 * 3) ^ 2 = 1 ∧ (val 11 toySq.d * 2 * 1 * 3 * 0) ^ 2 ≠ 1 ∧
    toySq.isOnCurve ⟨toySq, ⟨⟨0, ⟨11⟩⟩, ⟨10, ⟨11⟩⟩, ⟨5, ⟨11⟩⟩, ⟨0, ⟨11⟩⟩⟩⟩ = R.ok true ∧
    Big.bits toySq.r < usizeMod ∧ CanonScalar toySq.r ⟨3, 8⟩ := by
  refine ⟨by unfold EDenotes Canon; decide, by unfold EDenotes Canon; decide, by decide, by decide, by decide +kernel, by decide +kernel,
    ⟨rfl, by decide, by decide⟩⟩

end Redox.Props.Ed
