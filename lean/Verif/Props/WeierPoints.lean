import Verif.Proofs.WeierDecode
import Verif.Math.Action
import Verif.Props.ScalarProps

/-!
# C22–C27, C31: points of Weierstrass curves
-/

namespace Redox.Props

open Spec Weierstrass WLink RCB

/-- `y² = x³ + x + 1` over GF(7): five points, no point of order two. Used in examples only. -/
def toy7 : Curve := ⟨⟨7⟩, ⟨1, ⟨7⟩⟩, ⟨1, ⟨7⟩⟩, 5, ⟨0, ⟨7⟩⟩, ⟨1, ⟨7⟩⟩, 1⟩

/-- `y² = x³ + x` over GF(7): `(0, 0)` has order two. Used in examples and refutations only. -/
def toy7b : Curve := ⟨⟨7⟩, ⟨1, ⟨7⟩⟩, ⟨0, ⟨7⟩⟩, 8, ⟨3, ⟨7⟩⟩, ⟨3, ⟨7⟩⟩, 1⟩

instance fact7 : Fact (Nat.Prime 7) := ⟨by norm_num⟩

theorem toy7_curve : WCurve 7 toy7 :=
  ⟨by norm_num, by norm_num, rfl, ⟨rfl, by decide, by decide⟩, ⟨rfl, by decide, by decide⟩, by decide⟩

theorem toy7b_curve : WCurve 7 toy7b :=
  ⟨by norm_num, by norm_num, rfl, ⟨rfl, by decide, by decide⟩, ⟨rfl, by decide, by decide⟩, by decide⟩

/-- The affine equation. -/
def OnW (p : ℕ) (e : Curve) (x y : FpElt) : Prop :=
  val p y ^ 2 = val p x ^ 3 + val p e.a * val p x + val p e.b

section
variable (p : ℕ) [Fact p.Prime] (e : Curve)

/-! ## C22 -/

/-- C22, `new_point`: succeeds exactly on the solutions of the curve equation, returns the point `(x, y)`, and that point
passes `is_on_curve`; on every other pair of field elements it panics. -/
theorem C22_new_point (he : WCurve p e) (x y : FpElt) (hx : Canon p x) (hy : Canon p y) :
    (OnW p e x y → ∃ P, e.newPoint x y = R.ok P ∧ P.c.x = x ∧ P.c.y = y ∧ e.isOnCurve P = R.ok true ∧
      ∃ h, WDenotes p e P (.some (val p x) (val p y) h)) ∧
    (¬ OnW p e x y → e.newPoint x y = R.panic .notValidPoint) := by
  obtain ⟨x, rfl⟩ := canon_iff.1 hx
  obtain ⟨y, rfl⟩ := canon_iff.1 hy
  have hiff : OnW p e (el x) (el y) ↔ x ^ 3 + 1 * (1 * (val p e.a * x + val p e.b * 1) - y ^ 2) = 0 := by
    simp only [OnW, val_el]
    constructor
    · intro h; linear_combination -h
    · intro h; linear_combination -h
  have hnew : e.newPoint (el x) (el y) = e.newProyPoint ⟨el x, el y, el (1 : ZMod p)⟩ := by
    simp only [Curve.newPoint, Curve.newProyPoint, he.field, one_eq, R.ok_bind]
  rw [hnew, newProyPoint_pt (ea he) (eb he), hiff]
  constructor
  · intro h
    rw [if_pos h]
    refine ⟨_, rfl, rfl, rfl, ?_, ?_⟩
    · rw [isOnCurve_pt (ea he) (eb he), decide_eq_true h]
    · obtain ⟨A, hA⟩ := exists_rep he.odd he.nonsingular h (Or.inr one_ne_zero)
      rcases A with _ | ⟨u, v, hn⟩
      · exact absurd hA.2.2 one_ne_zero
      · obtain ⟨_, hu, hv⟩ := hA
        rw [mul_one] at hu hv
        subst hu hv
        simp only [val_el]
        exact ⟨hn, denotes_iff.2 ⟨_, _, _, rfl, one_ne_zero, by ring, by ring⟩⟩
  · intro h; rw [if_neg h]

/-- C22, `identity`: never panics and is the point at infinity. -/
theorem C22_identity (he : WCurve p e) :
    ∃ P, e.identity = R.ok P ∧ WDenotes p e P 0 ∧ P.isZero = true ∧ e.isOnCurve P = R.ok true := by
  refine ⟨_, identity_pt he, denotes_iff.2 ⟨_, _, _, rfl, rfl, one_ne_zero, rfl⟩, ?_, ?_⟩
  · simp [isZero_pt]
  · rw [isOnCurve_pt (ea he) (eb he), decide_eq_true (by ring)]

/-- Every way of obtaining a point of `e` through the API. `normalize` is allowed on points with `z ≠ 0` only. -/
inductive WBuilt : Point → Prop
  | newPoint {x y P} : Canon p x → Canon p y → e.newPoint x y = R.ok P → WBuilt P
  | identity {P} : e.identity = R.ok P → WBuilt P
  | generator {P} : Canon p e.gx → Canon p e.gy → e.getGenerator = R.ok P → WBuilt P
  | decode {buf P} : e.decode buf = R.ok (.ok P) → WBuilt P
  | neg {P S} : WBuilt P → P.neg = R.ok S → WBuilt S
  | add {P Q S} : WBuilt P → WBuilt Q → P.add Q = R.ok S → WBuilt S
  | sub {P Q S} : WBuilt P → WBuilt Q → P.sub Q = R.ok S → WBuilt S
  | mul {prof P k S} : WBuilt P → P.mul prof k = R.ok S → WBuilt S
  | normalize {P S} : WBuilt P → P.c.z.isZero = false → P.normalize = R.ok S → WBuilt S

end

section
variable {p : ℕ} [Fact p.Prime] {e : Curve}

/-- The representation invariant. -/
def WGood (p : ℕ) (e : Curve) (P : Point) : Prop :=
  ∃ x y z : ZMod p, P = pt e x y z ∧ x ^ 3 + z * (z * (val p e.a * x + val p e.b * z) - y ^ 2) = 0

theorem wgood_newProyPoint (he : WCurve p e) {x y z : ZMod p} {P : Point}
    (h : e.newProyPoint ⟨el x, el y, el z⟩ = R.ok P) : WGood p e P := by
  rw [newProyPoint_pt (ea he) (eb he)] at h
  split_ifs at h with h0
  exact ⟨x, y, z, by simpa using h.symm, h0⟩

theorem wgood_newPoint (he : WCurve p e) {x y : ZMod p} {P : Point} (h : e.newPoint (el x) (el y) = R.ok P) :
    WGood p e P := by
  have hnew : e.newPoint (el x) (el y) = e.newProyPoint ⟨el x, el y, el (1 : ZMod p)⟩ := by
    simp only [Curve.newPoint, Curve.newProyPoint, he.field, one_eq, R.ok_bind]
  rw [hnew] at h
  exact wgood_newProyPoint he h

theorem wgood_neg (he : WCurve p e) {P S : Point} (hP : WGood p e P) (h : P.neg = R.ok S) : WGood p e S := by
  obtain ⟨x, y, z, rfl, _⟩ := hP
  simp only [Point.neg, pt, neg_el, R.ok_bind] at h
  exact wgood_newProyPoint he h

theorem wgood_add (he : WCurve p e) {P Q S : Point} (hP : WGood p e P) (hQ : WGood p e Q) (h : P.add Q = R.ok S) :
    WGood p e S := by
  obtain ⟨x, y, z, rfl, _⟩ := hP
  obtain ⟨x', y', z', rfl, _⟩ := hQ
  have hb : ((pt e x y z).e == (pt e x' y' z').e) = true := by simp [pt]
  rw [Point.add, hb, doIfEq_true, Point.coreAdd, coreAddCoords_pt (ea he) (eb he), R.ok_bind] at h
  exact wgood_newProyPoint he h

theorem wgood_double (he : WCurve p e) {P S : Point} (hP : WGood p e P) (h : P.coreDoubling = R.ok S) :
    WGood p e S := by
  obtain ⟨x, y, z, rfl, h0⟩ := hP
  rw [Point.coreDoubling, coreDoublingCoords_pt (ea he) (eb he) _ _ _ h0, R.ok_bind] at h
  exact wgood_newProyPoint he h

theorem wgood_mulLoop (he : WCurve p e) {P : Point} (hP : WGood p e P) : ∀ (bits : List Bool) (Q S : Point),
    WGood p e Q → P.mulLoop bits Q = R.ok S → WGood p e S := by
  intro bits
  induction bits with
  | nil => intro Q S hQ h; simp only [Point.mulLoop, R.ok.injEq] at h; exact h ▸ hQ
  | cons k bits ih =>
    intro Q S hQ h
    rw [Point.mulLoop] at h
    obtain ⟨D, hD, h⟩ := R.bind_eq_ok.1 h
    have hDg := wgood_double he hQ hD
    cases k with
    | false => exact ih D S hDg (by simpa using h)
    | true =>
      simp only [if_true] at h
      obtain ⟨T, hT, h⟩ := R.bind_eq_ok.1 h
      exact ih T S (wgood_add he hDg hP hT) h

theorem wgood_identity (he : WCurve p e) {P : Point} (h : e.identity = R.ok P) : WGood p e P := by
  rw [identity_pt he, R.ok.injEq] at h
  exact ⟨0, 1, 0, h.symm, by ring⟩

theorem split_buf {n : ℕ} {buf : List Byte} (h : buf.length = n + 1 ∨ buf.length = 2 * n + 1) :
    ∃ t xs ys, buf = t :: (xs ++ ys) ∧ xs.length = n ∧ (ys = [] ∨ ys.length = n) := by
  cases buf with
  | nil => simp at h
  | cons t bs =>
    simp only [List.length_cons] at h
    refine ⟨t, bs.take n, bs.drop n, by rw [List.take_append_drop], ?_, ?_⟩
    · rw [List.length_take]; omega
    · rw [← List.length_eq_zero_iff, List.length_drop]; omega

theorem sqrt_el_cases (h2 : p ≠ 2) (z : ZMod p) :
    (∃ s : ZMod p, (el z).sqrt = R.ok (el s)) ∨ (el z).sqrt = R.panic .unimplemented := by
  have hp := (Fact.out : p.Prime)
  have hodd := hp.eq_two_or_odd.resolve_left h2
  by_cases h : SqrtOK p
  · exact Or.inl ⟨_, sqrt_el h z⟩
  · have h1 : ¬ (3 = p % 16 % 4) := by unfold SqrtOK at h; omega
    have h3 : ¬ (5 = p % 16 % 8) := by unfold SqrtOK at h; omega
    right
    by_cases h3' : 9 = p % 16
    · simp [FpElt.sqrt, Fp.calcSqrtPrecmp, FpElt.sqrtWith, ← h3']
    · simp_all [FpElt.sqrt, Fp.calcSqrtPrecmp, FpElt.sqrtWith]

/-- Whatever `decode` returns was made by `new_point`. -/
theorem decode_newPoint (he : WCurve p e) {buf : List Byte} {P : Point} (h : e.decode buf = R.ok (.ok P)) :
    ∃ x y : ZMod p, e.newPoint (el x) (el y) = R.ok P := by
  have h1 := one_le_sizeBytes he
  by_cases hl1 : buf.length = 1
  · obtain ⟨t, rfl⟩ := List.length_eq_one_iff.1 hl1
    rw [decode_one he] at h; cases h
  by_cases hl : buf.length = e.f.sizeBytes + 1 ∨ buf.length = 2 * e.f.sizeBytes + 1
  · obtain ⟨t, xs, ys, rfl, hx, hy⟩ := split_buf hl
    rw [decode_body he t xs ys hx hy] at h
    split_ifs at h
    all_goals try (cases h; done)
    · exact ⟨_, _, by simpa [R.bind_eq_ok] using h⟩
    · obtain ⟨s, hs, h⟩ := R.bind_eq_ok.1 h
      rcases sqrt_el_cases he.odd ((Big.fromBytesBE xs : ZMod p) ^ 3 + val p e.a * (Big.fromBytesBE xs : ZMod p) +
        val p e.b) with ⟨s', hs'⟩ | hs'
      · rw [hs', R.ok.injEq] at hs
        subst hs
        simp only [neg_el] at h
        split_ifs at h
        · exact ⟨_, _, by simpa [R.bind_eq_ok] using h⟩
        · exact ⟨_, _, by simpa [R.bind_eq_ok] using h⟩
      · rw [hs'] at hs; cases hs
  · rw [decode_wrongSize he buf hl1 (by tauto) (by tauto)] at h; cases h

theorem wgood_decode (he : WCurve p e) {buf : List Byte} {P : Point} (h : e.decode buf = R.ok (.ok P)) :
    WGood p e P := by
  obtain ⟨x, y, h⟩ := decode_newPoint he h
  exact wgood_newPoint he h

theorem denotes_newPoint (he : WCurve p e) {x y : ZMod p} {P : Point} (h : e.newPoint (el x) (el y) = R.ok P) :
    ∃ A, WDenotes p e P A := by
  rw [newPoint_pt he] at h
  split_ifs at h with h0
  rw [R.ok.injEq] at h
  subst h
  obtain ⟨A, hA⟩ := exists_rep (x := x) (y := y) (z := 1) he.odd he.nonsingular (by linear_combination -h0) (Or.inr one_ne_zero)
  exact ⟨A, denotes_iff.2 ⟨_, _, _, rfl, hA⟩⟩

theorem two_lt_of (he : WCurve p e) : 2 < p := by
  have := he.prime.two_le; have := he.odd; omega

theorem normalize_pt (he : WCurve p e) (x y z : ZMod p) :
    (pt e x y z).normalize = R.ok (pt e (x * z⁻¹) (y * z⁻¹) 1) := by
  haveI : Fact (2 < p) := ⟨two_lt_of he⟩
  simp [Point.normalize, pt]

theorem WBuilt.wgood (he : WCurve p e) {P : Point} (h : WBuilt p e P) : WGood p e P := by
  induction h with
  | newPoint hx hy h =>
    obtain ⟨x, rfl⟩ := canon_iff.1 hx
    obtain ⟨y, rfl⟩ := canon_iff.1 hy
    exact wgood_newPoint he h
  | identity h => exact wgood_identity he h
  | generator hx hy h =>
    obtain ⟨x, hx⟩ := canon_iff.1 hx
    obtain ⟨y, hy⟩ := canon_iff.1 hy
    rw [Curve.getGenerator, he.field, one_eq, R.ok_bind, hx, hy] at h
    exact wgood_newProyPoint he h
  | decode h => exact wgood_decode he h
  | neg _ h ih => exact wgood_neg he ih h
  | add _ _ h ih1 ih2 => exact wgood_add he ih1 ih2 h
  | sub _ _ h ih1 ih2 =>
    obtain ⟨N, hN, h⟩ := R.bind_eq_ok.1 h
    exact wgood_add he ih1 (wgood_neg he ih2 hN) h
  | mul _ h ih =>
    rw [Point.mul, doIfEq] at h
    split_ifs at h
    have hPe : ∀ {P : Point}, WGood p e P → P.e = e := by rintro _ ⟨x, y, z, rfl, _⟩; rfl
    obtain ⟨Q, hQ, h⟩ := R.bind_eq_ok.1 h
    obtain ⟨bits, _, h⟩ := R.bind_eq_ok.1 h
    rw [hPe ih] at hQ
    exact wgood_mulLoop he ih bits Q _ (wgood_identity he hQ) h
  | normalize _ hz h ih =>
    obtain ⟨x, y, z, rfl, h0⟩ := ih
    rw [normalize_pt he, R.ok.injEq] at h
    subst h
    have hz' : z ≠ 0 := by simpa [pt] using hz
    refine ⟨_, _, _, rfl, ?_⟩
    field_simp
    linear_combination h0

end

section
variable (p : ℕ) [Fact p.Prime] (e : Curve)

/-- C22, histories: whatever sequence of operations produced a point, it belongs to the curve, has reduced coordinates and
passes `is_on_curve`. Partial: `normalize` is only allowed on points with `z ≠ 0`; see `C22_refuted_normalize`. -/
theorem C22_history_partial (he : WCurve p e) (P : Point) (h : WBuilt p e P) :
    P.e = e ∧ Canon p P.c.x ∧ Canon p P.c.y ∧ Canon p P.c.z ∧ e.isOnCurve P = R.ok true := by
  obtain ⟨x, y, z, rfl, h0⟩ := h.wgood he
  refine ⟨rfl, canon_el x, canon_el y, canon_el z, ?_⟩
  rw [isOnCurve_pt (ea he) (eb he), decide_eq_true h0]

/-- C22 is refuted by the public method `normalize`: applied to the identity it yields `(0 : 0 : 1)`, which is not on the
curve (when `b ≠ 0`) and is not recognised as the identity any more. -/
theorem C22_refuted_normalize (he : WCurve p e) (hb : val p e.b ≠ 0) :
    ∃ I N, e.identity = R.ok I ∧ I.normalize = R.ok N ∧ e.isOnCurve N = R.ok false ∧ N.isZero = false := by
  refine ⟨_, _, identity_pt he, normalize_pt he _ _ _, ?_, ?_⟩
  · rw [isOnCurve_pt (ea he) (eb he), decide_eq_false]
    simpa using hb
  · simp [isZero_pt]

/-- C22: a point with reduced coordinates that passes `is_on_curve` stands for a point of the curve, unless all three
coordinates are zero; and conversely. -/
theorem C22_points (he : WCurve p e) (P : Point) (hP : P.e = e) (hx : Canon p P.c.x) (hy : Canon p P.c.y)
    (hz : Canon p P.c.z) :
    (∃ A, WDenotes p e P A) ↔ e.isOnCurve P = R.ok true ∧ (P.c.y.isZero = false ∨ P.c.z.isZero = false) := by
  obtain ⟨e', ⟨x, y, z⟩⟩ := P
  obtain rfl : e' = e := hP
  obtain ⟨x, rfl⟩ := canon_iff.1 hx
  obtain ⟨y, rfl⟩ := canon_iff.1 hy
  obtain ⟨z, rfl⟩ := canon_iff.1 hz
  change (∃ A, WDenotes p e' (pt e' x y z) A) ↔ e'.isOnCurve (pt e' x y z) = _ ∧ _
  rw [isOnCurve_pt (ea he) (eb he)]
  simp only [R.ok.injEq, decide_eq_true_eq, isZero_el, decide_eq_false_iff_not]
  constructor
  · rintro ⟨A, hA⟩
    obtain ⟨x', y', z', h, hr⟩ := denotes_iff.1 hA
    obtain ⟨-, rfl, rfl, rfl⟩ := pt_inj.1 h
    refine ⟨Rep.onCurve hr, ?_⟩
    rcases A with _ | ⟨u, v, hn⟩
    · exact Or.inl hr.2.1
    · exact Or.inr hr.1
  · rintro ⟨h, h0⟩
    obtain ⟨A, hA⟩ := exists_rep he.odd he.nonsingular h h0
    exact ⟨A, denotes_iff.2 ⟨x, y, z, rfl, hA⟩⟩

example : WCurve 7 toy7 ∧ toy7.newPoint ⟨2, ⟨7⟩⟩ ⟨5, ⟨7⟩⟩ = R.ok ⟨toy7, ⟨⟨2, ⟨7⟩⟩, ⟨5, ⟨7⟩⟩, ⟨1, ⟨7⟩⟩⟩⟩ ∧
    toy7.newPoint ⟨2, ⟨7⟩⟩ ⟨4, ⟨7⟩⟩ = R.panic .notValidPoint ∧ val 7 toy7.b ≠ 0 :=
  ⟨toy7_curve, by decide +kernel, by decide +kernel, by decide⟩

example : WBuilt 7 toy7 ⟨toy7, ⟨⟨0, ⟨7⟩⟩, ⟨1, ⟨7⟩⟩, ⟨1, ⟨7⟩⟩⟩⟩ :=
  .generator ⟨rfl, by decide, by decide⟩ ⟨rfl, by decide, by decide⟩ (by decide +kernel)

/-! ## C23 -/

/-- A curve has no point of order two exactly when its cubic has no root in the field. -/
theorem noTwoTorsion_iff (he : WCurve p e) :
    NoTwoTorsion p e ↔ ∀ x : ZMod p, x ^ 3 + val p e.a * x + val p e.b ≠ 0 := by
  have h2 := two_ne_zero' (p := p) he.odd
  constructor
  · intro h x hx
    obtain ⟨A, hA⟩ := exists_rep (x := x) (y := 0) (z := 1) he.odd he.nonsingular (by linear_combination hx)
      (Or.inr one_ne_zero)
    rcases A with _ | ⟨u, v, hn⟩
    · exact one_ne_zero hA.2.2
    · have hv : v = 0 := by simpa using hA.2.2.symm
      exact ((orderTwo_some h2 hn).2 hv).1 (h _ ((orderTwo_some h2 hn).2 hv).2)
  · intro h A hA
    rcases A with _ | ⟨u, v, hn⟩
    · rfl
    · by_contra h0
      have hv : v = 0 := (orderTwo_some h2 hn).1 ⟨h0, hA⟩
      subst hv
      have := ((nonsingular_iff _ _ u 0).1 hn).1
      exact h u (by rw [← this]; ring)

theorem not_orderTwo_of {p : ℕ} [Fact p.Prime] {e : Curve} (h : NoTwoTorsion p e) (A : (wGroup p e).Point) :
    ¬ OrderTwo A := fun h' => h'.1 (h A h'.2)

theorem toy7_no2 : NoTwoTorsion 7 toy7 := (noTwoTorsion_iff 7 toy7 toy7_curve).2 (by decide)

/-- C23. On a curve without points of order two, for all points and all their projective representatives, `+`, binary `-`
and unary `-` do not panic and return the sum, difference and negative in the group of the curve. -/
theorem C23_group_law (he : WCurve p e) (h2 : NoTwoTorsion p e) (P Q : Point) (A B : (wGroup p e).Point)
    (hP : WDenotes p e P A) (hQ : WDenotes p e Q B) :
    WReturns p e (P.add Q) (A + B) ∧ WReturns p e (P.sub Q) (A - B) ∧ WReturns p e P.neg (-A) := by
  obtain ⟨x, y, z, rfl, hA⟩ := denotes_iff.1 hP
  obtain ⟨x', y', z', rfl, hB⟩ := denotes_iff.1 hQ
  refine ⟨add_pt he hA hB (not_orderTwo_of h2 _), ?_, ⟨_, neg_pt he hA, denotes_iff.2 ⟨_, _, _, rfl, Rep.neg hA⟩⟩⟩
  rw [Point.sub, neg_pt he hB, R.ok_bind, sub_eq_add_neg]
  exact add_pt he hA (Rep.neg hB) (not_orderTwo_of h2 _)

/-- `==` in closed form. -/
theorem eq_of_denotes (P Q : Point) (A B : (wGroup p e).Point) (hP : WDenotes p e P A) (hQ : WDenotes p e Q B) :
    P.eq Q = R.ok (decide (A = B)) := by
  obtain ⟨x, y, z, rfl, hA⟩ := denotes_iff.1 hP
  obtain ⟨x', y', z', rfl, hB⟩ := denotes_iff.1 hQ
  rw [eq_pt]
  congr 1
  rw [decide_eq_decide]
  simp only [true_and]
  exact Rep.eq_iff hA hB

/-- C23, read off the API alone: `+` is commutative and associative up to `==`, `identity()` is neutral, `-P` is the
inverse and `P - Q` is `P + (-Q)`; none of these computations panics. -/
theorem C23_laws (he : WCurve p e) (h2 : NoTwoTorsion p e) (P Q T : Point)
    (hP : ∃ A, WDenotes p e P A) (hQ : ∃ A, WDenotes p e Q A) (hT : ∃ A, WDenotes p e T A) :
    (do (← P.add Q).eq (← Q.add P)) = R.ok true ∧
    (do (← (← P.add Q).add T).eq (← P.add (← Q.add T))) = R.ok true ∧
    (do (← P.add (← e.identity)).eq P) = R.ok true ∧
    (do (← P.add (← P.neg)).eq (← e.identity)) = R.ok true ∧
    (do (← P.sub Q).eq (← P.add (← Q.neg))) = R.ok true := by
  obtain ⟨A, hA⟩ := hP
  obtain ⟨B, hB⟩ := hQ
  obtain ⟨C, hC⟩ := hT
  obtain ⟨I, hI, hId, -⟩ := C22_identity p e he
  have law := fun P Q A B hP hQ => C23_group_law p e he h2 P Q A B hP hQ
  obtain ⟨⟨PQ, ePQ, dPQ⟩, ⟨PmQ, ePmQ, dPmQ⟩, ⟨nP, enP, dnP⟩⟩ := law P Q A B hA hB
  obtain ⟨⟨QP, eQP, dQP⟩, -, ⟨nQ, enQ, dnQ⟩⟩ := law Q P B A hB hA
  obtain ⟨⟨QT, eQT, dQT⟩, -, -⟩ := law Q T B C hB hC
  obtain ⟨⟨S1, eS1, dS1⟩, -, -⟩ := law PQ T _ C dPQ hC
  obtain ⟨⟨S2, eS2, dS2⟩, -, -⟩ := law P QT A _ hA dQT
  obtain ⟨⟨PI, ePI, dPI⟩, -, -⟩ := law P I A 0 hA hId
  obtain ⟨⟨PN, ePN, dPN⟩, -, -⟩ := law P nP A _ hA dnP
  obtain ⟨⟨PnQ, ePnQ, dPnQ⟩, -, -⟩ := law P nQ A _ hA dnQ
  refine ⟨?_, ?_, ?_, ?_, ?_⟩
  · simp only [ePQ, eQP, R.ok_bind, eq_of_denotes p e _ _ _ _ dPQ dQP, add_comm A B, decide_true]
  · simp only [ePQ, eQT, eS1, eS2, R.ok_bind, eq_of_denotes p e _ _ _ _ dS1 dS2, add_assoc, decide_true]
  · simp only [hI, ePI, R.ok_bind, eq_of_denotes p e _ _ _ _ dPI hA, add_zero, decide_true]
  · simp only [enP, hI, ePN, R.ok_bind, eq_of_denotes p e _ _ _ _ dPN hId, add_neg_cancel, decide_true]
  · simp only [ePmQ, enQ, ePnQ, R.ok_bind, eq_of_denotes p e _ _ _ _ dPmQ dPnQ, sub_eq_add_neg, decide_true]

/-- The hypotheses are met: twice the generator of the toy curve, as a representative with `z = 2`, and a sum. -/
example : WCurve 7 toy7 ∧ NoTwoTorsion 7 toy7 ∧ (∃ A, WDenotes 7 toy7 ⟨toy7, ⟨⟨4, ⟨7⟩⟩, ⟨3, ⟨7⟩⟩, ⟨2, ⟨7⟩⟩⟩⟩ A) ∧
    (do (← (Point.mk toy7 ⟨⟨4, ⟨7⟩⟩, ⟨3, ⟨7⟩⟩, ⟨2, ⟨7⟩⟩⟩).add (← toy7.getGenerator)).eq
            (← toy7.newPoint ⟨2, ⟨7⟩⟩ ⟨2, ⟨7⟩⟩)) = R.ok true :=
  ⟨toy7_curve, toy7_no2, (C22_points 7 toy7 toy7_curve _ rfl ⟨rfl, by decide, by decide⟩ ⟨rfl, by decide, by decide⟩
    ⟨rfl, by decide, by decide⟩).2 ⟨by decide +kernel, by decide +kernel⟩, by decide +kernel⟩

/-! ## C24 -/

/-- C24, exact characterisation on any nonsingular curve: `P + Q` never panics; it returns the group sum unless `P - Q` is
a point of order two. Partial: in that case it returns `(0 : 0 : 0)`, see `C24_refuted`. -/
theorem C24_add_partial (he : WCurve p e) (P Q : Point) (A B : (wGroup p e).Point)
    (hP : WDenotes p e P A) (hQ : WDenotes p e Q B) :
    (¬ (A - B ≠ 0 ∧ (A - B) + (A - B) = 0) → WReturns p e (P.add Q) (A + B)) ∧
    ((A - B ≠ 0 ∧ (A - B) + (A - B) = 0) →
      ∃ S, P.add Q = R.ok S ∧ S.c.x.isZero ∧ S.c.y.isZero ∧ S.c.z.isZero ∧ e.isOnCurve S = R.ok true ∧
        ∀ T C, WDenotes p e T C → S.eq T = R.ok true ∧ T.eq S = R.ok true) := by
  obtain ⟨x, y, z, rfl, hA⟩ := denotes_iff.1 hP
  obtain ⟨x', y', z', rfl, hB⟩ := denotes_iff.1 hQ
  refine ⟨fun h => add_pt he hA hB h, fun h => ⟨_, add_pt_orderTwo he hA hB h, ?_, ?_, ?_, ?_, ?_⟩⟩
  · simp [pt]
  · simp [pt]
  · simp [pt]
  · rw [isOnCurve_pt (ea he) (eb he), decide_eq_true (by ring)]
  · intro T C hT
    obtain ⟨x, y, z, rfl, hC⟩ := denotes_iff.1 hT
    rw [eq_pt, eq_pt]
    simp

end

/-- C24 is refuted: on `y² = x³ + x` over GF(7), `identity() + (0, 0)` is the triple `(0 : 0 : 0)`; it passes
`is_on_curve`, and `==` declares it equal to `identity()`, to `(0, 0)` and to `(1, 3)`, which are three different points. -/
theorem C24_refuted : ∃ O T G S, toy7b.identity = R.ok O ∧ toy7b.newPoint ⟨0, ⟨7⟩⟩ ⟨0, ⟨7⟩⟩ = R.ok T ∧
    toy7b.newPoint ⟨1, ⟨7⟩⟩ ⟨3, ⟨7⟩⟩ = R.ok G ∧ O.add T = R.ok S ∧ toy7b.isOnCurve S = R.ok true ∧
    S.eq O = R.ok true ∧ S.eq T = R.ok true ∧ S.eq G = R.ok true ∧
    O.eq T = R.ok false ∧ T.eq G = R.ok false ∧ O.eq G = R.ok false := by
  refine ⟨⟨toy7b, ⟨⟨0, ⟨7⟩⟩, ⟨1, ⟨7⟩⟩, ⟨0, ⟨7⟩⟩⟩⟩, ⟨toy7b, ⟨⟨0, ⟨7⟩⟩, ⟨0, ⟨7⟩⟩, ⟨1, ⟨7⟩⟩⟩⟩,
    ⟨toy7b, ⟨⟨1, ⟨7⟩⟩, ⟨3, ⟨7⟩⟩, ⟨1, ⟨7⟩⟩⟩⟩, ⟨toy7b, ⟨⟨0, ⟨7⟩⟩, ⟨0, ⟨7⟩⟩, ⟨0, ⟨7⟩⟩⟩⟩, ?_, ?_, ?_, ?_, ?_, ?_, ?_, ?_, ?_, ?_, ?_⟩ <;>
    decide +kernel

section
variable (p : ℕ) [Fact p.Prime] (e : Curve)

/-! ## C25, C26 -/

/-- Scalar multiplication by a reduced scalar of a point none of whose multiples has order two. -/
theorem mul_denotes (he : WCurve p e) (hr : Big.bits e.r < usizeMod) (prof : Profile) (P : Point)
    (A : (wGroup p e).Point) (hP : WDenotes p e P A) (hno : ∀ n : ℤ, ¬ OrderTwo (n • A)) (k : Scalar)
    (hk : CanonScalar e.r k) (h0 : k.k ≠ 0 ∨ prof = .release) : WReturns p e (P.mul prof k) (k.k • A) := by
  obtain ⟨kk, kr⟩ := k
  obtain ⟨hkr, hk0, hk1⟩ := hk
  simp only at hkr hk0 hk1 h0 ⊢
  subst hkr
  obtain ⟨n, rfl⟩ := Int.eq_ofNat_of_zero_le hk0
  have hPe : P.e = e := hP.1
  have hI := identity_pt he
  have hId : WDenotes p e (pt e (0 : ZMod p) 1 0) ((0 : ℕ) • A) := by
    rw [zero_nsmul]; exact denotes_iff.2 ⟨_, _, _, rfl, rfl, one_ne_zero, rfl⟩
  rw [Point.mul, hPe, beq_self_eq_true, doIfEq_true, Point.coreMul, hPe, hI, R.ok_bind, natCast_zsmul]
  by_cases hn : n = 0
  · subst hn
    obtain rfl : prof = .release := by simpa using h0
    have := iterLR_zero_release (e.r : ℤ)
    simp only [Nat.cast_zero, this, R.ok_bind, Point.mulLoop]
    exact ⟨_, rfl, hId⟩
  · have hb : Big.bits n < usizeMod := lt_of_le_of_lt (Big.bits_mono (by omega)) hr
    rw [iterLR_eq prof _ hn hb, R.ok_bind]
    have := mulLoop_pt he hP hno (bitsDown n (Big.bits n)) 0 _ hId
    rwa [← valMSB, valMSB_bitsDown] at this

/-- C25. On a curve without points of order two, `P * k` does not panic and returns `k` times `P`, for every point, every
reduced scalar, in both build profiles. Partial: for `k = 0` only in the release profile, see `C25_refuted_zero`. -/
theorem C25_mul_partial (he : WCurve p e) (h2 : NoTwoTorsion p e) (hr : Big.bits e.r < usizeMod) (prof : Profile)
    (P : Point) (A : (wGroup p e).Point) (hP : WDenotes p e P A) (k : Scalar) (hk : CanonScalar e.r k)
    (h0 : k.k ≠ 0 ∨ prof = .release) : WReturns p e (P.mul prof k) (k.k • A) :=
  mul_denotes p e he hr prof P A hP (fun _ => not_orderTwo_of h2 _) k hk h0

/-- C25 on any nonsingular curve, for points of odd order (such as those of the prime-order subgroup). -/
theorem C25_mul_odd_order_partial (he : WCurve p e) (hr : Big.bits e.r < usizeMod) (prof : Profile)
    (P : Point) (A : (wGroup p e).Point) (hP : WDenotes p e P A) (n : ℕ) (hn : n % 2 = 1) (hA : n • A = 0) (k : Scalar)
    (hk : CanonScalar e.r k) (h0 : k.k ≠ 0 ∨ prof = .release) : WReturns p e (P.mul prof k) (k.k • A) := by
  refine mul_denotes p e he hr prof P A hP (fun m hm => hm.1 ?_) k hk h0
  obtain ⟨j, rfl⟩ : ∃ j, n = 2 * j + 1 := ⟨n / 2, by omega⟩
  have h1 : (2 * j + 1) • (m • A) = 0 := by rw [smul_comm, hA, zsmul_zero]
  rwa [add_smul, one_smul, mul_nsmul, two_nsmul, hm.2, nsmul_zero, zero_add] at h1

/-- C25 is refuted for the zero scalar with overflow checks on: `P * 0` panics for every point of every curve. -/
theorem C25_refuted_zero (he : WCurve p e) (P : Point) (hP : P.e = e) :
    P.mul .debug ⟨0, e.r⟩ = R.panic .overflow := by
  rw [Point.mul, hP, beq_self_eq_true, doIfEq_true, Point.coreMul, hP, identity_pt he, R.ok_bind,
    iterLR_zero_debug, R.panic_bind]

/-- C25/C26: `P * new_scalar(k)` for any integer `k`, for a point killed by the order. -/
theorem C26_integer (he : WCurve p e) (h2 : NoTwoTorsion p e) (hr : Big.bits e.r < usizeMod) (hr1 : 1 ≤ e.r)
    (prof : Profile) (P : Point) (A : (wGroup p e).Point) (hP : WDenotes p e P A) (hA : e.r • A = 0) (k : ℤ)
    (h0 : ¬ (e.r : ℤ) ∣ k ∨ prof = .release) :
    WReturns p e (do P.mul prof (← e.newScalar k)) (k • A) := by
  rw [Curve.newScalar, scalar_new_eq e.r hr1, R.ok_bind]
  have := C25_mul_partial p e he h2 hr prof P A hP ⟨k % e.r, e.r⟩
    ⟨rfl, Int.emod_nonneg _ (by omega), Int.emod_lt_of_pos _ (by omega)⟩ (by
      rcases h0 with h0 | h0
      · exact Or.inl (fun h => h0 (Int.dvd_of_emod_eq_zero h))
      · exact Or.inr h0)
  simp only at this
  have hk : k • A = (k % e.r) • A := zsmul_emod e.r A hA k
  rwa [hk]

/-- C26. For a point killed by the order, scalar multiplication is an action of the integers modulo the order, as seen
through `==`: `(k1+k2)P == k1 P + k2 P`, `(k1 k2) P == k1 (k2 P)`, `(-k1) P == -(k1 P)`. Nothing panics (release profile,
or no scalar involved is a multiple of the order). -/
theorem C26_action (he : WCurve p e) (h2 : NoTwoTorsion p e) (hr : Big.bits e.r < usizeMod) (hr1 : 1 ≤ e.r)
    (prof : Profile) (P : Point) (A : (wGroup p e).Point) (hP : WDenotes p e P A) (hA : e.r • A = 0) (k1 k2 : ℤ)
    (h0 : (∀ k ∈ [k1, k2, k1 + k2, k1 * k2, -k1], ¬ (e.r : ℤ) ∣ k) ∨ prof = .release) :
    (do let s ← (← e.newScalar k1).add (← e.newScalar k2)
        (← P.mul prof s).eq (← (← P.mul prof (← e.newScalar k1)).add (← P.mul prof (← e.newScalar k2)))) = R.ok true ∧
    (do let s ← (← e.newScalar k1).mul (← e.newScalar k2)
        (← P.mul prof s).eq (← (← P.mul prof (← e.newScalar k2)).mul prof (← e.newScalar k1))) = R.ok true ∧
    (do let s ← (← e.newScalar k1).neg
        (← P.mul prof s).eq (← (← P.mul prof (← e.newScalar k1)).neg)) = R.ok true := by
  have key : ∀ (Q : Point) (B : (wGroup p e).Point), WDenotes p e Q B → e.r • B = 0 → ∀ k ∈ [k1, k2, k1 + k2, k1 * k2, -k1],
      ∃ s S, Scalar.new k e.r = R.ok s ∧ Q.mul prof s = R.ok S ∧ WDenotes p e S (k • B) := by
    intro Q B hQ hB k hk
    obtain ⟨S, h, hS⟩ := C26_integer p e he h2 hr hr1 prof Q B hQ hB k (by
      rcases h0 with h0 | h0
      · exact Or.inl (h0 k hk)
      · exact Or.inr h0)
    rw [Curve.newScalar, scalar_new_eq e.r hr1, R.ok_bind] at h
    exact ⟨_, S, scalar_new_eq e.r hr1 k, h, hS⟩
  obtain ⟨x, y, hx, hy, -, -, hadd, -, hmul, hneg, -⟩ := C19_arith e.r hr1 k1 k2
  obtain ⟨x', S1, hx', e1, d1⟩ := key P A hP hA k1 (by simp)
  obtain ⟨y', S2, hy', e2, d2⟩ := key P A hP hA k2 (by simp)
  obtain ⟨z, S3, hz, e3, d3⟩ := key P A hP hA (k1 + k2) (by simp)
  obtain ⟨w, S4, hw, e4, d4⟩ := key P A hP hA (k1 * k2) (by simp)
  obtain ⟨v, S5, hv, e5, d5⟩ := key P A hP hA (-k1) (by simp)
  obtain ⟨x'', S6, hx'', e6, d6⟩ := key S2 _ d2 (by rw [smul_comm, hA, zsmul_zero]) k1 (by simp)
  obtain rfl : x = x' := by rw [hx, R.ok.injEq] at hx'; exact hx'
  obtain rfl : x = x'' := by rw [hx, R.ok.injEq] at hx''; exact hx''
  obtain rfl : y = y' := by rw [hy, R.ok.injEq] at hy'; exact hy'
  obtain ⟨⟨S7, e7, d7⟩, -, -⟩ := C23_group_law p e he h2 S1 S2 _ _ d1 d2
  obtain ⟨-, -, ⟨S8, e8, d8⟩⟩ := C23_group_law p e he h2 S1 S2 _ _ d1 d2
  refine ⟨?_, ?_, ?_⟩
  · simp only [Curve.newScalar, hx, hy, R.ok_bind, hadd, hz, e3, e1, e2, e7, eq_of_denotes p e _ _ _ _ d3 d7, zsmul_add',
      decide_true]
  · simp only [Curve.newScalar, hx, hy, R.ok_bind, hmul, hw, e4, e2, e6, eq_of_denotes p e _ _ _ _ d4 d6, zsmul_mul',
      decide_true]
  · simp only [Curve.newScalar, hx, R.ok_bind, hneg, hv, e5, e1, e8, eq_of_denotes p e _ _ _ _ d5 d8, zsmul_neg',
      decide_true]

/-- A concrete case: five times the generator of the toy curve, by the code, in both profiles. -/
example : Big.bits toy7.r < usizeMod ∧ CanonScalar toy7.r ⟨3, 5⟩ ∧
    (do (← (← toy7.getGenerator).mul .debug ⟨3, 5⟩).eq (← toy7.newPoint ⟨2, ⟨7⟩⟩ ⟨2, ⟨7⟩⟩)) = R.ok true := by
  refine ⟨by decide +kernel, ⟨rfl, by decide, by decide⟩, by decide +kernel⟩

/-! ## C27 -/

/-- C27. `==` on two representatives of points of one curve never panics and answers whether they stand for the same point,
so it is an equivalence relation compatible with the group operations. -/
theorem C27_eq (P Q : Point) (A B : (wGroup p e).Point) (hP : WDenotes p e P A) (hQ : WDenotes p e Q B) :
    P.eq Q = R.ok (decide (A = B)) := eq_of_denotes p e P Q A B hP hQ

/-- C27: a representative stands for at most one point. -/
theorem C27_unique (P : Point) (A B : (wGroup p e).Point) (hP : WDenotes p e P A) (hQ : WDenotes p e P B) : A = B := by
  obtain ⟨x, y, z, rfl, hA⟩ := denotes_iff.1 hP
  obtain ⟨x', y', z', h, hB⟩ := denotes_iff.1 hQ
  obtain ⟨-, rfl, rfl, rfl⟩ := pt_inj.1 h
  exact (Rep.eq_iff hA hB).1 ⟨by ring, by ring⟩

/-- C27: `is_zero` answers whether the point is the identity. -/
theorem C27_is_zero (P : Point) (A : (wGroup p e).Point) (hP : WDenotes p e P A) : P.isZero = decide (A = 0) := by
  obtain ⟨x, y, z, rfl, hA⟩ := denotes_iff.1 hP
  rw [isZero_pt, decide_eq_decide]
  rcases A with _ | ⟨u, v, hn⟩
  · exact ⟨fun _ => rfl, fun _ => hA⟩
  · exact ⟨fun h => absurd h.2.2 hA.1, fun h => absurd h (WeierstrassCurve.Affine.Point.some_ne_zero hn)⟩

/-- C27, histories: on a curve without points of order two every point built through the API stands for a point of the
curve, so `C27_eq` applies to it. -/
theorem C27_built (he : WCurve p e) (h2 : NoTwoTorsion p e) (P : Point) (h : WBuilt p e P) : ∃ A, WDenotes p e P A := by
  induction h with
  | newPoint hx hy h =>
    obtain ⟨x, rfl⟩ := canon_iff.1 hx
    obtain ⟨y, rfl⟩ := canon_iff.1 hy
    exact denotes_newPoint he h
  | identity h =>
    obtain ⟨I, hI, hd, -⟩ := C22_identity p e he
    rw [hI, R.ok.injEq] at h
    exact ⟨0, h ▸ hd⟩
  | generator hx hy h =>
    obtain ⟨x, hx⟩ := canon_iff.1 hx
    obtain ⟨y, hy⟩ := canon_iff.1 hy
    refine denotes_newPoint (x := x) (y := y) he ?_
    rw [← h]
    simp only [Curve.getGenerator, Curve.newPoint, Curve.newProyPoint, hx, hy, he.field, one_eq, R.ok_bind]
  | decode h =>
    obtain ⟨x, y, h⟩ := decode_newPoint he h
    exact denotes_newPoint he h
  | neg _ h ih =>
    obtain ⟨A, hA⟩ := ih
    obtain ⟨-, -, ⟨S, hS, hd⟩⟩ := C23_group_law p e he h2 _ _ A A hA hA
    rw [h, R.ok.injEq] at hS
    exact ⟨_, hS ▸ hd⟩
  | add _ _ h ih1 ih2 =>
    obtain ⟨A, hA⟩ := ih1
    obtain ⟨B, hB⟩ := ih2
    obtain ⟨⟨S, hS, hd⟩, -, -⟩ := C23_group_law p e he h2 _ _ A B hA hB
    rw [h, R.ok.injEq] at hS
    exact ⟨_, hS ▸ hd⟩
  | sub _ _ h ih1 ih2 =>
    obtain ⟨A, hA⟩ := ih1
    obtain ⟨B, hB⟩ := ih2
    obtain ⟨-, ⟨S, hS, hd⟩, -⟩ := C23_group_law p e he h2 _ _ A B hA hB
    rw [h, R.ok.injEq] at hS
    exact ⟨_, hS ▸ hd⟩
  | mul _ h ih =>
    obtain ⟨A, hA⟩ := ih
    rw [Point.mul, doIfEq] at h
    split_ifs at h
    obtain ⟨Q, hQ, h⟩ := R.bind_eq_ok.1 h
    obtain ⟨bits, _, h⟩ := R.bind_eq_ok.1 h
    rw [hA.1, identity_pt he, R.ok.injEq] at hQ
    have hId : WDenotes p e (pt e (0 : ZMod p) 1 0) ((0 : ℕ) • A) := by
      rw [zero_nsmul]; exact denotes_iff.2 ⟨_, _, _, rfl, rfl, one_ne_zero, rfl⟩
    obtain ⟨S, hS, hd⟩ := mulLoop_pt he hA (fun _ => not_orderTwo_of h2 _) bits 0 _ hId
    rw [← hQ, hS, R.ok.injEq] at h
    exact ⟨_, h ▸ hd⟩
  | normalize hb hz h ih =>
    obtain ⟨x, y, z, hP, h0⟩ := (WBuilt.normalize hb hz h).wgood he
    obtain ⟨x', y', z', rfl, h0'⟩ := hb.wgood he
    rw [normalize_pt he, hP, R.ok.injEq] at h
    obtain ⟨-, -, -, rfl⟩ := pt_inj.1 h
    obtain ⟨A, hA⟩ := exists_rep he.odd he.nonsingular h0 (Or.inr one_ne_zero)
    exact ⟨A, denotes_iff.2 ⟨_, _, _, hP, hA⟩⟩

end

/-! ## C31 -/

/-- C31, Weierstrass: points of curves that differ in any parameter cannot be added or subtracted, and a scalar of another
order cannot multiply: all three panic. `==` never says they are equal. -/
theorem C31_weierstrass (P Q : Point) (k : Scalar) :
    (P.e ≠ Q.e → P.add Q = R.panic .differentCurves ∧ (∃ why, P.sub Q = R.panic why) ∧ P.eq Q ≠ R.ok true) ∧
    (k.r ≠ P.e.r → ∀ prof, P.mul prof k = R.panic .scalarMismatch) := by
  refine ⟨fun h => ?_, fun h prof => ?_⟩
  · have hb : (P.e == Q.e) = false := by simpa using h
    refine ⟨by simp [Point.add, hb], ?_, ?_⟩
    · cases hn : Q.neg with
      | panic w => exact ⟨w, by simp [Point.sub, hn]⟩
      | ok N =>
        have hNe : N.e = Q.e := by
          obtain ⟨y, _, hn⟩ := R.bind_eq_ok.1 hn
          obtain ⟨b, _, hn⟩ := R.bind_eq_ok.1 hn
          rw [doIfEq] at hn
          split_ifs at hn
          simp only [R.ok.injEq] at hn
          rw [← hn]
        exact ⟨.differentCurves, by simp [Point.sub, hn, Point.add, hNe, hb]⟩
    · intro hq
      obtain ⟨a, _, hq⟩ := R.bind_eq_ok.1 hq
      obtain ⟨b, _, hq⟩ := R.bind_eq_ok.1 hq
      obtain ⟨c, _, hq⟩ := R.bind_eq_ok.1 hq
      obtain ⟨d, _, hq⟩ := R.bind_eq_ok.1 hq
      simp [hb] at hq
  · have hb : ((P.e.r : ℤ) == k.r) = false := by simpa using Ne.symm h
    simp [Point.mul, hb]

example : toy7 ≠ toy7b := by decide

end Redox.Props
