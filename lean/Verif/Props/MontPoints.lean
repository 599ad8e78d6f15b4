import Verif.Proofs.MontDecode
import Verif.Math.Action
import Verif.Props.WeierCodec

/-!
# C32, C33, C53 and the Montgomery part of C31
-/

set_option linter.unusedSectionVars false

namespace Redox.Props.Mo

open Spec Montgomery MLink Mont

/-- `y² = x³ + x` over GF(7), eight points, `s = 1` is no `y`-coordinate. Used in examples only. -/
def toyM : Curve := ⟨⟨7⟩, ⟨0, ⟨7⟩⟩, ⟨1, ⟨7⟩⟩, ⟨1, ⟨7⟩⟩, 8, ⟨3, ⟨7⟩⟩, ⟨3, ⟨7⟩⟩, 1⟩

/-- `y² = x³ + 3x² + x` over GF(7) with `s = 1`, the `y`-coordinate of `(2, 1)`. Used in refutations only. -/
def toyMs : Curve := ⟨⟨7⟩, ⟨3, ⟨7⟩⟩, ⟨1, ⟨7⟩⟩, ⟨1, ⟨7⟩⟩, 12, ⟨2, ⟨7⟩⟩, ⟨1, ⟨7⟩⟩, 1⟩

/-- `3y² = x³ + x` over GF(7). Used in refutations only. -/
def toyMb : Curve := ⟨⟨7⟩, ⟨0, ⟨7⟩⟩, ⟨3, ⟨7⟩⟩, ⟨0, ⟨7⟩⟩, 8, ⟨4, ⟨7⟩⟩, ⟨2, ⟨7⟩⟩, 1⟩

theorem toyM_curve : MCurve 7 toyM :=
  ⟨by norm_num, by norm_num, rfl, ⟨rfl, by decide, by decide⟩, ⟨rfl, by decide, by decide⟩, ⟨rfl, by decide, by decide⟩,
    by decide⟩

theorem toyMs_curve : MCurve 7 toyMs :=
  ⟨by norm_num, by norm_num, rfl, ⟨rfl, by decide, by decide⟩, ⟨rfl, by decide, by decide⟩, ⟨rfl, by decide, by decide⟩,
    by decide⟩

theorem toyMb_curve : MCurve 7 toyMb :=
  ⟨by norm_num, by norm_num, rfl, ⟨rfl, by decide, by decide⟩, ⟨rfl, by decide, by decide⟩, ⟨rfl, by decide, by decide⟩,
    by decide⟩

theorem toyM_s : SNotY 7 toyM := by unfold SNotY; decide

section
variable {p : ℕ} [Fact p.Prime] {e : Curve}

theorem not_hasY_of (hb : val p e.b = 1) (hs : SNotY p e) (A : (mGroup p e).Point) : ¬ HasY (val p e.s) A := by
  rcases A with _ | ⟨u, v, hn⟩
  · exact not_hasY_zero
  · rw [hasY_some]
    rintro rfl
    have := ((nonsingular_iff _ u (val p e.s)).1 hn).1
    exact hs u (by rw [hb, one_mul, this])

/-- `==` in closed form. -/
theorem eq_of_denotes (P Q : Point) (A B : (mGroup p e).Point) (hP : MDenotes p e P A) (hQ : MDenotes p e Q B) :
    P.eq Q = R.ok (decide (A = B)) := by
  obtain ⟨x, y, z, rfl, hA⟩ := denotes_iff.1 hP
  obtain ⟨x', y', z', rfl, hB⟩ := denotes_iff.1 hQ
  rw [eq_pt]
  congr 1
  rw [decide_eq_decide]
  simp only [true_and]
  exact Rep.eq_iff hA hB

theorem identity_denotes (he : MCurve p e) : ∃ I, e.identity = R.ok I ∧ MDenotes p e I 0 :=
  ⟨_, identity_pt he, denotes_iff.2 ⟨_, _, _, rfl, rfl, one_ne_zero, rfl⟩⟩

theorem normalize_pt (he : MCurve p e) (x y z : ZMod p) :
    (pt e x y z).normalize = R.ok (pt e (x * z⁻¹) (y * z⁻¹) 1) := by
  haveI : Fact (2 < p) := ⟨MLink.two_lt_of he⟩
  simp [Point.normalize, pt]

end

section
variable (p : ℕ) [Fact p.Prime] (e : Curve)

/-! ## C32 -/

/-- C32. On a nonsingular Montgomery curve with `b = 1` whose constant `s` is not the `y`-coordinate of a point, for all
points and representatives, `+`, binary `-` and unary `-` do not panic and return sum, difference and negative in the group
of the curve. Partial: `b = 1` only, see `C32_refuted_b`. -/
theorem _root_.Redox.Props.C32_group_law_partial (he : MCurve p e) (hb : val p e.b = 1) (hs : SNotY p e) (P Q : Point)
    (A B : (mGroup p e).Point) (hP : MDenotes p e P A) (hQ : MDenotes p e Q B) :
    MReturns p e (P.add Q) (A + B) ∧ MReturns p e (P.sub Q) (A - B) ∧ MReturns p e P.neg (-A) := by
  obtain ⟨x, y, z, rfl, hA⟩ := denotes_iff.1 hP
  obtain ⟨x', y', z', rfl, hB⟩ := denotes_iff.1 hQ
  refine ⟨add_pt he hb hA hB (not_hasY_of hb hs _), ?_,
    ⟨_, neg_pt he hb hA, denotes_iff.2 ⟨_, _, _, rfl, Rep.neg hA⟩⟩⟩
  rw [Point.sub, neg_pt he hb hB, R.ok_bind, sub_eq_add_neg]
  exact add_pt he hb hA (Rep.neg hB) (not_hasY_of hb hs _)

/-- C32 without the condition on `s`: `P + Q` never panics; it is the group sum unless `P - Q` is an affine point with
`y`-coordinate `s`, and then it is the triple `(0 : 0 : 0)`, which stands for no point. In particular doubling is always
right. -/
theorem _root_.Redox.Props.C32_add_exact_partial (he : MCurve p e) (hb : val p e.b = 1) (P Q : Point)
    (A B : (mGroup p e).Point) (hP : MDenotes p e P A) (hQ : MDenotes p e Q B) :
    ((∀ x h, A - B ≠ .some x (val p e.s) h) → MReturns p e (P.add Q) (A + B)) ∧
    ((∃ x h, A - B = .some x (val p e.s) h) →
      ∃ S, P.add Q = R.ok S ∧ S.c.x.isZero ∧ S.c.y.isZero ∧ S.c.z.isZero ∧ ∀ C, ¬ MDenotes p e S C) := by
  obtain ⟨x, y, z, rfl, hA⟩ := denotes_iff.1 hP
  obtain ⟨x', y', z', rfl, hB⟩ := denotes_iff.1 hQ
  refine ⟨fun h => add_pt he hb hA hB ?_, ?_⟩
  · generalize A - B = D at h
    rcases D with _ | ⟨u, v, hn⟩
    · exact not_hasY_zero
    · rw [hasY_some]; rintro rfl; exact h u hn rfl
  · rintro ⟨x, hx, h⟩
    refine ⟨_, add_pt_exceptional he hb hA hB (by rw [h]; rfl), by simp [pt], by simp [pt], by simp [pt], ?_⟩
    intro C hC
    obtain ⟨x', y', z', h, hr⟩ := denotes_iff.1 hC
    obtain ⟨-, rfl, rfl, rfl⟩ := pt_inj.1 h
    rcases C with _ | ⟨u, v, hn⟩
    · exact hr.2.1 rfl
    · exact hr.1 rfl

/-- C32, read off the API alone, up to `==`. -/
theorem _root_.Redox.Props.C32_laws_partial (he : MCurve p e) (hb : val p e.b = 1) (hs : SNotY p e) (P Q T : Point)
    (hP : ∃ A, MDenotes p e P A) (hQ : ∃ A, MDenotes p e Q A) (hT : ∃ A, MDenotes p e T A) :
    (do (← P.add Q).eq (← Q.add P)) = R.ok true ∧
    (do (← (← P.add Q).add T).eq (← P.add (← Q.add T))) = R.ok true ∧
    (do (← P.add (← e.identity)).eq P) = R.ok true ∧
    (do (← P.add (← P.neg)).eq (← e.identity)) = R.ok true ∧
    (do (← P.sub Q).eq (← P.add (← Q.neg))) = R.ok true := by
  obtain ⟨A, hA⟩ := hP
  obtain ⟨B, hB⟩ := hQ
  obtain ⟨C, hC⟩ := hT
  obtain ⟨I, hI, hId⟩ := identity_denotes he
  have law := fun P Q A B hP hQ => C32_group_law_partial p e he hb hs P Q A B hP hQ
  obtain ⟨⟨PQ, ePQ, dPQ⟩, ⟨PmQ, ePmQ, dPmQ⟩, ⟨nP, enP, dnP⟩⟩ := law P Q A B hA hB
  obtain ⟨⟨QP, eQP, dQP⟩, -, ⟨nQ, enQ, dnQ⟩⟩ := law Q P B A hB hA
  obtain ⟨⟨QT, eQT, dQT⟩, -, -⟩ := law Q T B C hB hC
  obtain ⟨⟨S1, eS1, dS1⟩, -, -⟩ := law PQ T _ C dPQ hC
  obtain ⟨⟨S2, eS2, dS2⟩, -, -⟩ := law P QT A _ hA dQT
  obtain ⟨⟨PI, ePI, dPI⟩, -, -⟩ := law P I A 0 hA hId
  obtain ⟨⟨PN, ePN, dPN⟩, -, -⟩ := law P nP A _ hA dnP
  obtain ⟨⟨PnQ, ePnQ, dPnQ⟩, -, -⟩ := law P nQ A _ hA dnQ
  refine ⟨?_, ?_, ?_, ?_, ?_⟩
  · simp only [ePQ, eQP, R.ok_bind, eq_of_denotes _ _ _ _ dPQ dQP, add_comm A B, decide_true]
  · simp only [ePQ, eQT, eS1, eS2, R.ok_bind, eq_of_denotes _ _ _ _ dS1 dS2, add_assoc, decide_true]
  · simp only [hI, ePI, R.ok_bind, eq_of_denotes _ _ _ _ dPI hA, add_zero, decide_true]
  · simp only [enP, hI, ePN, R.ok_bind, eq_of_denotes _ _ _ _ dPN hId, add_neg_cancel, decide_true]
  · simp only [ePmQ, enQ, ePnQ, R.ok_bind, eq_of_denotes _ _ _ _ dPmQ dPnQ, sub_eq_add_neg, decide_true]

/-- `==` and `is_zero` on Montgomery points: same point, same answer. -/
theorem _root_.Redox.Props.C32_eq (P Q : Point) (A B : (mGroup p e).Point) (hP : MDenotes p e P A) (hQ : MDenotes p e Q B) :
    P.eq Q = R.ok (decide (A = B)) ∧ P.isZero = decide (A = 0) := by
  refine ⟨eq_of_denotes P Q A B hP hQ, ?_⟩
  obtain ⟨x, y, z, rfl, hA⟩ := denotes_iff.1 hP
  rw [isZero_pt, decide_eq_decide]
  rcases A with _ | ⟨u, v, hn⟩
  · exact ⟨fun _ => rfl, fun _ => hA⟩
  · exact ⟨fun h => absurd h.2.2 hA.1, fun h => absurd h (WeierstrassCurve.Affine.Point.some_ne_zero hn)⟩

end

/-- C32 is refuted for `b ≠ 1`: on the nonsingular curve `3y² = x³ + x` over GF(7), whose `s = 0`, doubling the point
`(4, 2)` panics. -/
theorem _root_.Redox.Props.C32_refuted_b : MCurve 7 toyMb ∧ ∃ P, toyMb.newPoint ⟨4, ⟨7⟩⟩ ⟨2, ⟨7⟩⟩ = R.ok P ∧
    P.add P = R.panic .notValidPoint :=
  ⟨toyMb_curve, ⟨toyMb, ⟨⟨4, ⟨7⟩⟩, ⟨2, ⟨7⟩⟩, ⟨1, ⟨7⟩⟩⟩⟩, by decide +kernel, by decide +kernel⟩

/-- The hypotheses are met: a generator of the toy curve and a sum, a representative with `z = 2`. -/
example : MCurve 7 toyM ∧ val 7 toyM.b = 1 ∧ SNotY 7 toyM ∧
    (do (← (Point.mk toyM ⟨⟨6, ⟨7⟩⟩, ⟨6, ⟨7⟩⟩, ⟨2, ⟨7⟩⟩⟩).add (← toyM.getGenerator)).eq
            (← toyM.newPoint ⟨1, ⟨7⟩⟩ ⟨4, ⟨7⟩⟩)) = R.ok true := by
  refine ⟨toyM_curve, by decide, toyM_s, by decide +kernel⟩

/-- The exceptional case is met: on `toyMs`, `(2, 1) + O`. -/
example : MCurve 7 toyMs ∧ val 7 toyMs.b = 1 ∧
    (do let S ← (← toyMs.getGenerator).add (← toyMs.identity)
        return S.c) = R.ok ⟨⟨0, ⟨7⟩⟩, ⟨0, ⟨7⟩⟩, ⟨0, ⟨7⟩⟩⟩ :=
  ⟨toyMs_curve, by decide, by decide +kernel⟩

section
variable (p : ℕ) [Fact p.Prime] (e : Curve)

/-! ## C33 -/

/-- C33. On such a curve `P * k` does not panic and returns `k` times `P`, for every point, every reduced scalar, in both
build profiles. Partial: `b = 1`, and for `k = 0` only in the release profile, see `C33_refuted_zero`. -/
theorem _root_.Redox.Props.C33_mul_partial (he : MCurve p e) (hb : val p e.b = 1) (hs : SNotY p e)
    (hr : Big.bits e.r < usizeMod) (prof : Profile) (P : Point)
    (A : (mGroup p e).Point) (hP : MDenotes p e P A) (k : Scalar)
    (hk : CanonScalar e.r k) (h0 : k.k ≠ 0 ∨ prof = .release) : MReturns p e (P.mul prof k) (k.k • A) := by
  obtain ⟨kk, kr⟩ := k
  obtain ⟨hkr, hk0, hk1⟩ := hk
  simp only at hkr hk0 hk1 h0 ⊢
  subst hkr
  obtain ⟨n, rfl⟩ := Int.eq_ofNat_of_zero_le hk0
  have hPe : P.e = e := hP.1
  have hI := identity_pt he
  have hId : MDenotes p e (pt e (0 : ZMod p) 1 0) ((0 : ℕ) • A) := by
    rw [zero_nsmul]; exact denotes_iff.2 ⟨_, _, _, rfl, rfl, one_ne_zero, rfl⟩
  rw [Point.mul, hPe, beq_self_eq_true, doIfEq_true, Point.coreMul, hPe, hI, R.ok_bind, natCast_zsmul]
  by_cases hn : n = 0
  · subst hn
    obtain rfl : prof = .release := by simpa using h0
    have := iterLR_zero_release (e.r : ℤ)
    simp only [Nat.cast_zero, this, R.ok_bind, Point.mulLoop]
    exact ⟨_, rfl, hId⟩
  · have hbl : Big.bits n < usizeMod := lt_of_le_of_lt (Big.bits_mono (by omega)) hr
    rw [iterLR_eq prof _ hn hbl, R.ok_bind]
    have := mulLoop_pt he hb hP (fun _ => not_hasY_of hb hs _) (bitsDown n (Big.bits n)) 0 _ hId
    rwa [← valMSB, valMSB_bitsDown] at this

/-- C33 is refuted for the zero scalar with overflow checks on: `P * 0` panics for every point of every curve. -/
theorem _root_.Redox.Props.C33_refuted_zero (he : MCurve p e) (P : Point) (hP : P.e = e) :
    P.mul .debug ⟨0, e.r⟩ = R.panic .overflow := by
  rw [Point.mul, hP, beq_self_eq_true, doIfEq_true, Point.coreMul, hP, identity_pt he, R.ok_bind,
    iterLR_zero_debug, R.panic_bind]

/-- C33: `P * new_scalar(k)` for any integer `k`, for a point killed by the order. -/
theorem _root_.Redox.Props.C33_integer_partial (he : MCurve p e) (hb : val p e.b = 1) (hs : SNotY p e)
    (hr : Big.bits e.r < usizeMod) (hr1 : 1 ≤ e.r)
    (prof : Profile) (P : Point) (A : (mGroup p e).Point) (hP : MDenotes p e P A) (hA : e.r • A = 0) (k : ℤ)
    (h0 : ¬ (e.r : ℤ) ∣ k ∨ prof = .release) :
    MReturns p e (do P.mul prof (← e.newScalar k)) (k • A) := by
  rw [Curve.newScalar, scalar_new_eq e.r hr1, R.ok_bind]
  have := C33_mul_partial p e he hb hs hr prof P A hP ⟨k % e.r, e.r⟩
    ⟨rfl, Int.emod_nonneg _ (by omega), Int.emod_lt_of_pos _ (by omega)⟩ (by
      rcases h0 with h0 | h0
      · exact Or.inl (fun h => h0 (Int.dvd_of_emod_eq_zero h))
      · exact Or.inr h0)
  simp only at this
  have hk : k • A = (k % e.r) • A := zsmul_emod e.r A hA k
  rwa [hk]

example : Big.bits toyM.r < usizeMod ∧ CanonScalar toyM.r ⟨3, 8⟩ ∧
    (do (← (← toyM.getGenerator).mul .debug ⟨3, 8⟩).eq (← toyM.newPoint ⟨5, ⟨7⟩⟩ ⟨5, ⟨7⟩⟩)) = R.ok true := by
  refine ⟨by decide +kernel, ⟨rfl, by decide, by decide⟩, by decide +kernel⟩

end

/-! ## C31 -/

/-- C31, Montgomery: points of curves that differ in any parameter cannot be added or subtracted, and a scalar of another
order cannot multiply: all three panic. `==` never says they are equal. -/
theorem _root_.Redox.Props.C31_montgomery (P Q : Point) (k : Scalar) :
    (P.e ≠ Q.e → P.add Q = R.panic .differentCurves ∧ (∃ why, P.sub Q = R.panic why) ∧ P.eq Q ≠ R.ok true) ∧
    (k.r ≠ P.e.r → ∀ prof, P.mul prof k = R.panic .scalarMismatch) := by
  refine ⟨fun h => ?_, fun h prof => ?_⟩
  · have hb : (P.e == Q.e) = false := by simpa using h
    refine ⟨by simp [Point.add, hb], ?_, ?_⟩
    · cases hn : Q.neg with
      | panic w => exact ⟨w, by simp [Point.sub, hn]⟩
      | ok N =>
        have hNe : N.e = Q.e := by
          obtain ⟨y, _, hn⟩ := R.bind_eq_ok.1 hn
          obtain ⟨b, _, hn⟩ := R.bind_eq_ok.1 hn
          rw [doIfEq] at hn
          split_ifs at hn
          simp only [R.ok.injEq] at hn
          rw [← hn]
        exact ⟨.differentCurves, by simp [Point.sub, hn, Point.add, hNe, hb]⟩
    · intro hq
      obtain ⟨a, _, hq⟩ := R.bind_eq_ok.1 hq
      obtain ⟨b, _, hq⟩ := R.bind_eq_ok.1 hq
      obtain ⟨c, _, hq⟩ := R.bind_eq_ok.1 hq
      obtain ⟨d, _, hq⟩ := R.bind_eq_ok.1 hq
      simp [hb] at hq
  · have hb : ((P.e.r : ℤ) == k.r) = false := by simpa using Ne.symm h
    simp [Point.mul, hb]

/-! ## C53 -/

section
variable (p : ℕ) [Fact p.Prime] (e : Curve)

/-- Every way of obtaining a Montgomery point through the API. -/
inductive MBuilt : Point → Prop
  | newPoint {x y P} : Canon p x → Canon p y → e.newPoint x y = R.ok P → MBuilt P
  | identity {P} : e.identity = R.ok P → MBuilt P
  | generator {P} : Canon p e.gx → Canon p e.gy → e.getGenerator = R.ok P → MBuilt P
  | decode {buf P} : e.decode buf = R.ok (.ok P) → MBuilt P
  | neg {P S} : MBuilt P → P.neg = R.ok S → MBuilt S
  | add {P Q S} : MBuilt P → MBuilt Q → P.add Q = R.ok S → MBuilt S
  | sub {P Q S} : MBuilt P → MBuilt Q → P.sub Q = R.ok S → MBuilt S
  | mul {prof P k S} : MBuilt P → P.mul prof k = R.ok S → MBuilt S
  | normalize {P S} : MBuilt P → P.normalize = R.ok S → MBuilt S

end

section
variable {p : ℕ} [Fact p.Prime] {e : Curve}

/-- The representation invariant. -/
def MGood (p : ℕ) (e : Curve) (P : Point) : Prop :=
  ∃ x y z : ZMod p, P = pt e x y z ∧ val p e.b * y ^ 2 * z = x * (x ^ 2 + val p e.a * x * z + z ^ 2)

theorem mgood_newProyPoint (he : MCurve p e) {x y z : ZMod p} {P : Point}
    (h : e.newProyPoint ⟨el x, el y, el z⟩ = R.ok P) : MGood p e P := by
  rw [newProyPoint_pt (ea he) (eb he)] at h
  split_ifs at h with h0
  exact ⟨x, y, z, by simpa using h.symm, h0⟩

theorem mgood_newPoint (he : MCurve p e) {x y : ZMod p} {P : Point} (h : e.newPoint (el x) (el y) = R.ok P) :
    MGood p e P := by
  have hnew : e.newPoint (el x) (el y) = e.newProyPoint ⟨el x, el y, el (1 : ZMod p)⟩ := by
    simp only [Curve.newPoint, Curve.newProyPoint, he.field, one_eq, R.ok_bind]
  rw [hnew] at h
  exact mgood_newProyPoint he h

theorem mgood_neg (he : MCurve p e) {P S : Point} (hP : MGood p e P) (h : P.neg = R.ok S) : MGood p e S := by
  obtain ⟨x, y, z, rfl, _⟩ := hP
  simp only [Point.neg, pt, neg_el, R.ok_bind] at h
  exact mgood_newProyPoint he h

theorem mgood_add (he : MCurve p e) {P Q S : Point} (hP : MGood p e P) (hQ : MGood p e Q) (h : P.add Q = R.ok S) :
    MGood p e S := by
  obtain ⟨x, y, z, rfl, _⟩ := hP
  obtain ⟨x', y', z', rfl, _⟩ := hQ
  have hb : ((pt e x y z).e == (pt e x' y' z').e) = true := by simp [pt]
  rw [Point.add, hb, doIfEq_true, Point.coreAdd, coreAddCoords_pt (ea he) (es he), R.ok_bind] at h
  exact mgood_newProyPoint he h

theorem mgood_mulLoop (he : MCurve p e) {P : Point} (hP : MGood p e P) : ∀ (bits : List Bool) (Q S : Point),
    MGood p e Q → P.mulLoop bits Q = R.ok S → MGood p e S := by
  intro bits
  induction bits with
  | nil => intro Q S hQ h; simp only [Point.mulLoop, R.ok.injEq] at h; exact h ▸ hQ
  | cons k bits ih =>
    intro Q S hQ h
    rw [Point.mulLoop] at h
    obtain ⟨D, hD, h⟩ := R.bind_eq_ok.1 h
    have hDg := mgood_add he hQ hQ hD
    cases k with
    | false => exact ih D S hDg (by simpa using h)
    | true =>
      simp only [if_true] at h
      obtain ⟨T, hT, h⟩ := R.bind_eq_ok.1 h
      exact ih T S (mgood_add he hDg hP hT) h

theorem mgood_identity (he : MCurve p e) {P : Point} (h : e.identity = R.ok P) : MGood p e P := by
  rw [identity_pt he, R.ok.injEq] at h
  exact ⟨0, 1, 0, h.symm, by ring⟩

/-- Whatever `decode` returns was made by `new_point`. -/
theorem decode_newPoint (he : MCurve p e) {buf : List Byte} {P : Point} (h : e.decode buf = R.ok (.ok P)) :
    ∃ x y : ZMod p, e.newPoint (el x) (el y) = R.ok P := by
  have h1 := one_le_sizeBytes he
  by_cases hl1 : buf.length = 1
  · obtain ⟨t, rfl⟩ := List.length_eq_one_iff.1 hl1
    rw [decode_one he] at h; cases h
  by_cases hl : buf.length = e.f.sizeBytes + 1 ∨ buf.length = 2 * e.f.sizeBytes + 1
  · obtain ⟨t, xs, ys, rfl, hx, hy⟩ := split_buf hl
    rw [decode_body he t xs ys hx hy] at h
    split_ifs at h
    all_goals try (cases h; done)
    · exact ⟨_, _, by simpa [R.bind_eq_ok] using h⟩
    · obtain ⟨s, hs, h⟩ := R.bind_eq_ok.1 h
      rcases sqrt_el_cases he.odd (((Big.fromBytesBE xs : ZMod p) ^ 3 + val p e.a * (Big.fromBytesBE xs : ZMod p) ^ 2 +
        (Big.fromBytesBE xs : ZMod p)) / val p e.b) with ⟨s', hs'⟩ | hs'
      · rw [hs', R.ok.injEq] at hs
        subst hs
        simp only [neg_el] at h
        split_ifs at h
        · exact ⟨_, _, by simpa [R.bind_eq_ok] using h⟩
        · exact ⟨_, _, by simpa [R.bind_eq_ok] using h⟩
      · rw [hs'] at hs; cases hs
  · rw [decode_wrongSize he buf hl1 (by tauto) (by tauto)] at h; cases h

theorem MBuilt.mgood (he : MCurve p e) {P : Point} (h : MBuilt p e P) : MGood p e P := by
  induction h with
  | newPoint hx hy h =>
    obtain ⟨x, rfl⟩ := canon_iff.1 hx
    obtain ⟨y, rfl⟩ := canon_iff.1 hy
    exact mgood_newPoint he h
  | identity h => exact mgood_identity he h
  | generator hx hy h =>
    obtain ⟨x, hx⟩ := canon_iff.1 hx
    obtain ⟨y, hy⟩ := canon_iff.1 hy
    rw [Curve.getGenerator, he.field, one_eq, R.ok_bind, hx, hy] at h
    exact mgood_newProyPoint he h
  | decode h =>
    obtain ⟨x, y, h⟩ := decode_newPoint he h
    exact mgood_newPoint he h
  | neg _ h ih => exact mgood_neg he ih h
  | add _ _ h ih1 ih2 => exact mgood_add he ih1 ih2 h
  | sub _ _ h ih1 ih2 =>
    obtain ⟨N, hN, h⟩ := R.bind_eq_ok.1 h
    exact mgood_add he ih1 (mgood_neg he ih2 hN) h
  | mul _ h ih =>
    rw [Point.mul, doIfEq] at h
    split_ifs at h
    have hPe : ∀ {P : Point}, MGood p e P → P.e = e := by rintro _ ⟨x, y, z, rfl, _⟩; rfl
    obtain ⟨Q, hQ, h⟩ := R.bind_eq_ok.1 h
    obtain ⟨bits, _, h⟩ := R.bind_eq_ok.1 h
    rw [hPe ih] at hQ
    exact mgood_mulLoop he ih bits Q _ (mgood_identity he hQ) h
  | normalize _ h ih =>
    obtain ⟨x, y, z, rfl, h0⟩ := ih
    rw [normalize_pt he, R.ok.injEq] at h
    subst h
    refine ⟨_, _, _, rfl, ?_⟩
    by_cases hz : z = 0
    · subst hz; simp
    · field_simp
      linear_combination h0

end

section
variable (p : ℕ) [Fact p.Prime] (e : Curve)

/-- C53, `new_point`: succeeds exactly on the solutions of `b y² = x³ + a x² + x` and panics on every other pair. -/
theorem _root_.Redox.Props.C53_new_point (he : MCurve p e) (x y : FpElt) (hx : Canon p x) (hy : Canon p y) :
    (val p e.b * val p y ^ 2 = val p x ^ 3 + val p e.a * val p x ^ 2 + val p x →
      ∃ P, e.newPoint x y = R.ok P ∧ P.c.x = x ∧ P.c.y = y ∧ P.c.z.isOne ∧ e.isOnCurve P = R.ok true) ∧
    (val p e.b * val p y ^ 2 ≠ val p x ^ 3 + val p e.a * val p x ^ 2 + val p x →
      e.newPoint x y = R.panic .notValidPoint) := by
  obtain ⟨x, rfl⟩ := canon_iff.1 hx
  obtain ⟨y, rfl⟩ := canon_iff.1 hy
  rw [newPoint_pt he]
  simp only [val_el]
  refine ⟨fun h => ⟨_, if_pos h, rfl, rfl, by simp [pt], ?_⟩, fun h => if_neg h⟩
  rw [isOnCurve_pt (ea he) (eb he), decide_eq_true (by linear_combination h)]

/-- C53, histories: whatever sequence of operations produced a point (any `b`, any `s`), it belongs to the curve, has
reduced coordinates and passes `is_on_curve`. -/
theorem _root_.Redox.Props.C53_history (he : MCurve p e) (P : Point) (h : MBuilt p e P) :
    P.e = e ∧ Canon p P.c.x ∧ Canon p P.c.y ∧ Canon p P.c.z ∧ e.isOnCurve P = R.ok true := by
  obtain ⟨x, y, z, rfl, h0⟩ := h.mgood he
  refine ⟨rfl, canon_el x, canon_el y, canon_el z, ?_⟩
  rw [isOnCurve_pt (ea he) (eb he), decide_eq_true h0]

/-- C53: a point with reduced coordinates of a curve with `b = 1` that passes `is_on_curve` stands for a point of the
curve, unless all three coordinates are zero; and conversely. -/
theorem _root_.Redox.Props.C53_points (he : MCurve p e) (hb : val p e.b = 1) (P : Point) (hP : P.e = e)
    (hx : Canon p P.c.x) (hy : Canon p P.c.y) (hz : Canon p P.c.z) :
    (∃ A, MDenotes p e P A) ↔ e.isOnCurve P = R.ok true ∧ (P.c.y.isZero = false ∨ P.c.z.isZero = false) := by
  obtain ⟨e', ⟨x, y, z⟩⟩ := P
  obtain rfl : e' = e := hP
  obtain ⟨x, rfl⟩ := canon_iff.1 hx
  obtain ⟨y, rfl⟩ := canon_iff.1 hy
  obtain ⟨z, rfl⟩ := canon_iff.1 hz
  change (∃ A, MDenotes p e' (pt e' x y z) A) ↔ e'.isOnCurve (pt e' x y z) = _ ∧ _
  rw [isOnCurve_pt (ea he) (eb he), hb]
  simp only [R.ok.injEq, decide_eq_true_eq, isZero_el, decide_eq_false_iff_not]
  constructor
  · rintro ⟨A, hA⟩
    obtain ⟨x', y', z', h, hr⟩ := denotes_iff.1 hA
    obtain ⟨-, rfl, rfl, rfl⟩ := pt_inj.1 h
    refine ⟨Rep.onCurve hr, ?_⟩
    rcases A with _ | ⟨u, v, hn⟩
    · exact Or.inl hr.2.1
    · exact Or.inr hr.1
  · rintro ⟨h, h0⟩
    obtain ⟨A, hA⟩ := exists_rep he.odd (ea_ne he) h h0
    exact ⟨A, denotes_iff.2 ⟨x, y, z, rfl, hA⟩⟩

/-- C53: `normalize` of the identity silently turns it into the finite point `(0, 0)` of order two. -/
theorem _root_.Redox.Props.C53_normalize_identity (he : MCurve p e) :
    ∃ I N, e.identity = R.ok I ∧ I.normalize = R.ok N ∧ N.c.x.isZero ∧ N.c.y.isZero ∧ N.c.z.isOne ∧
      I.eq N = R.ok false := by
  refine ⟨_, _, identity_pt he, normalize_pt he _ _ _, by simp [pt], by simp [pt], by simp [pt], ?_⟩
  rw [eq_pt]; simp

example : MBuilt 7 toyM ⟨toyM, ⟨⟨3, ⟨7⟩⟩, ⟨3, ⟨7⟩⟩, ⟨1, ⟨7⟩⟩⟩⟩ :=
  .generator ⟨rfl, by decide, by decide⟩ ⟨rfl, by decide, by decide⟩ (by decide +kernel)

example : toyM.newPoint ⟨5, ⟨7⟩⟩ ⟨2, ⟨7⟩⟩ = R.ok ⟨toyM, ⟨⟨5, ⟨7⟩⟩, ⟨2, ⟨7⟩⟩, ⟨1, ⟨7⟩⟩⟩⟩ ∧
    toyM.newPoint ⟨5, ⟨7⟩⟩ ⟨3, ⟨7⟩⟩ = R.panic .notValidPoint := ⟨by decide +kernel, by decide +kernel⟩

end
end Redox.Props.Mo
