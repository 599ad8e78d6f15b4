import Verif.Proofs.EdwDecode
import Verif.Math.Action
import Verif.Props.ScalarProps
import Verif.Props.WeierPoints

/-!
# C36, C37, C38, C54 and the Edwards part of C31
-/

set_option linter.unusedSectionVars false

namespace Redox.Props.Ed

open Spec Edwards ELink Edw

/-- `2x² + y² = 1 + 3x²y²` over GF(7), a cyclic group of twelve points. Used in examples only. -/
def toyE : Curve := ⟨⟨7⟩, ⟨2, ⟨7⟩⟩, ⟨3, ⟨7⟩⟩, 12, ⟨1, ⟨7⟩⟩, ⟨2, ⟨7⟩⟩, 1⟩

instance fact7 : Fact (Nat.Prime 7) := ⟨by norm_num⟩

theorem toyE_params : EParams 7 toyE :=
  ⟨by norm_num, by norm_num, rfl, ⟨rfl, by decide, by decide⟩, ⟨rfl, by decide, by decide⟩⟩

instance toyE_curve : ECurve 7 toyE :=
  ⟨toyE_params, by decide, ⟨3, by decide⟩, by
    have h : ∀ r : ZMod 7, val 7 toyE.d ≠ r * r := by decide
    rintro ⟨r, hr⟩; exact h r hr⟩

section
variable (p : ℕ) [Fact p.Prime] (e : Curve)

/-! ## C36 -/

/-- C36. On a twisted Edwards curve with `a` a nonzero square and `d` a non-square, for all points and representatives,
`+`, binary `-` and unary `-` do not panic and return a representative (nonzero `Z`, consistent `T`) of the sum, difference
and negative under the Edwards law; `identity()` represents `(0, 1)`. -/
theorem _root_.Redox.Props.C36_group_law [he : ECurve p e] (P Q : Point) (A B : eGroup p e) (hP : EDenotes p e P A)
    (hQ : EDenotes p e Q B) :
    EReturns p e (P.add Q) (A + B) ∧ EReturns p e (P.sub Q) (A - B) ∧ EReturns p e P.neg (-A) ∧
    EReturns p e e.identity 0 := by
  refine ⟨add_denotes hP hQ, ?_, neg_denotes hP, ⟨_, identity_pt he.params, identity_denotes⟩⟩
  obtain ⟨N, hN, hNd⟩ := neg_denotes hQ
  rw [Point.sub, hN, R.ok_bind, sub_eq_add_neg]
  exact add_denotes hP hNd

/-- C36, read off the API alone, up to `==`: commutativity, associativity, identity, inverse, subtraction. -/
theorem _root_.Redox.Props.C36_laws [he : ECurve p e] (P Q T : Point)
    (hP : ∃ A, EDenotes p e P A) (hQ : ∃ A, EDenotes p e Q A) (hT : ∃ A, EDenotes p e T A) :
    (do (← P.add Q).eq (← Q.add P)) = R.ok true ∧
    (do (← (← P.add Q).add T).eq (← P.add (← Q.add T))) = R.ok true ∧
    (do (← P.add (← e.identity)).eq P) = R.ok true ∧
    (do (← P.add (← P.neg)).eq (← e.identity)) = R.ok true ∧
    (do (← P.sub Q).eq (← P.add (← Q.neg))) = R.ok true := by
  obtain ⟨A, hA⟩ := hP
  obtain ⟨B, hB⟩ := hQ
  obtain ⟨C, hC⟩ := hT
  have law := fun P Q A B hP hQ => C36_group_law p e P Q A B hP hQ
  obtain ⟨⟨PQ, ePQ, dPQ⟩, ⟨PmQ, ePmQ, dPmQ⟩, ⟨nP, enP, dnP⟩, ⟨I, hI, hId⟩⟩ := law P Q A B hA hB
  obtain ⟨⟨QP, eQP, dQP⟩, -, ⟨nQ, enQ, dnQ⟩, -⟩ := law Q P B A hB hA
  obtain ⟨⟨QT, eQT, dQT⟩, -, -⟩ := law Q T B C hB hC
  obtain ⟨⟨S1, eS1, dS1⟩, -, -⟩ := law PQ T _ C dPQ hC
  obtain ⟨⟨S2, eS2, dS2⟩, -, -⟩ := law P QT A _ hA dQT
  obtain ⟨⟨PI, ePI, dPI⟩, -, -⟩ := law P I A 0 hA hId
  obtain ⟨⟨PN, ePN, dPN⟩, -, -⟩ := law P nP A _ hA dnP
  obtain ⟨⟨PnQ, ePnQ, dPnQ⟩, -, -⟩ := law P nQ A _ hA dnQ
  refine ⟨?_, ?_, ?_, ?_, ?_⟩
  · simp only [ePQ, eQP, R.ok_bind, ELink.eq_of_denotes _ _ _ _ dPQ dQP, add_comm A B, decide_true]
  · simp only [ePQ, eQT, eS1, eS2, R.ok_bind, ELink.eq_of_denotes _ _ _ _ dS1 dS2, add_assoc, decide_true]
  · simp only [hI, ePI, R.ok_bind, ELink.eq_of_denotes _ _ _ _ dPI hA, add_zero, decide_true]
  · simp only [enP, hI, ePN, R.ok_bind, ELink.eq_of_denotes _ _ _ _ dPN hId, add_neg_cancel, decide_true]
  · simp only [ePmQ, enQ, ePnQ, R.ok_bind, ELink.eq_of_denotes _ _ _ _ dPmQ dPnQ, sub_eq_add_neg, decide_true]

/-- C36: `==` on Edwards points is equality of the points they stand for. -/
theorem _root_.Redox.Props.C36_eq (P Q : Point) (A B : eGroup p e) (hP : EDenotes p e P A) (hQ : EDenotes p e Q B) :
    P.eq Q = R.ok (decide (A = B)) := ELink.eq_of_denotes P Q A B hP hQ

end

/-- The hypotheses are met: `(1, 2) + (1, 2)` with two representatives of `(1, 2)` on the toy curve is `(3, 3)`. -/
example : ECurve 7 toyE ∧ EDenotes 7 toyE ⟨toyE, ⟨⟨2, ⟨7⟩⟩, ⟨4, ⟨7⟩⟩, ⟨4, ⟨7⟩⟩, ⟨2, ⟨7⟩⟩⟩⟩ ⟨1, 2, by decide⟩ ∧
    EDenotes 7 toyE ⟨toyE, ⟨⟨1, ⟨7⟩⟩, ⟨2, ⟨7⟩⟩, ⟨2, ⟨7⟩⟩, ⟨1, ⟨7⟩⟩⟩⟩ ⟨1, 2, by decide⟩ ∧
    (do (← (Point.mk toyE ⟨⟨2, ⟨7⟩⟩, ⟨4, ⟨7⟩⟩, ⟨4, ⟨7⟩⟩, ⟨2, ⟨7⟩⟩⟩).add (← toyE.getGenerator)).eq
            (← toyE.newPoint ⟨3, ⟨7⟩⟩ ⟨3, ⟨7⟩⟩)) = R.ok true := by
  refine ⟨inferInstance, by unfold EDenotes Canon; decide, by unfold EDenotes Canon; decide, by decide +kernel⟩

section
variable (p : ℕ) [Fact p.Prime] (e : Curve)

/-! ## C37 -/

/-- C37. `P * k` does not panic and returns `k` times `P`, for every point, every reduced scalar, in both build profiles.
Partial: for `k = 0` only in the release profile, see `C37_refuted_zero`. -/
theorem _root_.Redox.Props.C37_mul_partial [he : ECurve p e] (hr : Big.bits e.r < usizeMod) (prof : Profile) (P : Point)
    (A : eGroup p e) (hP : EDenotes p e P A) (k : Scalar)
    (hk : CanonScalar e.r k) (h0 : k.k ≠ 0 ∨ prof = .release) : EReturns p e (P.mul prof k) (k.k • A) := by
  obtain ⟨kk, kr⟩ := k
  obtain ⟨hkr, hk0, hk1⟩ := hk
  simp only at hkr hk0 hk1 h0 ⊢
  subst hkr
  obtain ⟨n, rfl⟩ := Int.eq_ofNat_of_zero_le hk0
  have hPe : P.e = e := hP.1
  have hI := identity_pt he.params
  have hId : EDenotes p e (pt e (0 : ZMod p) 1 0 1) ((0 : ℕ) • A) := by
    rw [zero_nsmul]; exact identity_denotes
  rw [Point.mul, hPe, beq_self_eq_true, doIfEq_true, Point.coreMul, hPe, hI, R.ok_bind, natCast_zsmul]
  by_cases hn : n = 0
  · subst hn
    obtain rfl : prof = .release := by simpa using h0
    have := iterLR_zero_release (e.r : ℤ)
    simp only [Nat.cast_zero, this, R.ok_bind, Point.mulLoop]
    exact ⟨_, rfl, hId⟩
  · have hbl : Big.bits n < usizeMod := lt_of_le_of_lt (Big.bits_mono (by omega)) hr
    rw [iterLR_eq prof _ hn hbl, R.ok_bind]
    have := mulLoop_pt hP (bitsDown n (Big.bits n)) 0 _ hId
    rwa [← valMSB, valMSB_bitsDown] at this

/-- C37 is refuted for the zero scalar with overflow checks on: `P * 0` panics for every point of every curve. -/
theorem _root_.Redox.Props.C37_refuted_zero (he : EParams p e) (P : Point) (hP : P.e = e) :
    P.mul .debug ⟨0, e.r⟩ = R.panic .overflow := by
  rw [Point.mul, hP, beq_self_eq_true, doIfEq_true, Point.coreMul, hP, identity_pt he, R.ok_bind,
    iterLR_zero_debug, R.panic_bind]

/-- C37: `P * new_scalar(k)` for any integer `k`, for a point killed by the order. -/
theorem _root_.Redox.Props.C37_integer_partial [he : ECurve p e] (hr : Big.bits e.r < usizeMod) (hr1 : 1 ≤ e.r)
    (prof : Profile) (P : Point) (A : eGroup p e) (hP : EDenotes p e P A) (hA : e.r • A = 0) (k : ℤ)
    (h0 : ¬ (e.r : ℤ) ∣ k ∨ prof = .release) :
    EReturns p e (do P.mul prof (← e.newScalar k)) (k • A) := by
  rw [Curve.newScalar, scalar_new_eq e.r hr1, R.ok_bind]
  have := C37_mul_partial p e hr prof P A hP ⟨k % e.r, e.r⟩
    ⟨rfl, Int.emod_nonneg _ (by omega), Int.emod_lt_of_pos _ (by omega)⟩ (by
      rcases h0 with h0 | h0
      · exact Or.inl (fun h => h0 (Int.dvd_of_emod_eq_zero h))
      · exact Or.inr h0)
  simp only at this
  have hk : k • A = (k % e.r) • A := zsmul_emod e.r A hA k
  rwa [hk]

example : Big.bits toyE.r < usizeMod ∧ CanonScalar toyE.r ⟨3, 12⟩ ∧
    (do (← (← toyE.getGenerator).mul .debug ⟨6, 12⟩).eq (← toyE.newPoint ⟨0, ⟨7⟩⟩ ⟨6, ⟨7⟩⟩)) = R.ok true := by
  refine ⟨by decide +kernel, ⟨rfl, by decide, by decide⟩, by decide +kernel⟩

/-! ## C38 -/

/-- C38, exact: `is_zero()` answers true for the identity and for one more point, `(0, -1)`. -/
theorem _root_.Redox.Props.C38_exact_partial [he : ECurve p e] (P : Point) (A : eGroup p e) (hP : EDenotes p e P A) :
    P.isZero = true ↔ A = 0 ∨ (A.x = 0 ∧ A.y = -1) := by
  obtain ⟨x, y, t, z, rfl, hz, rfl, rfl, rfl⟩ := denotes_iff.1 hP
  rw [isZero_pt, decide_eq_true_eq]
  constructor
  · rintro ⟨hx, -, -, -⟩
    have hx : A.x = 0 := (mul_eq_zero.1 hx).resolve_right hz
    by_cases hy : A.y = 1
    · left; ext; exacts [hx, hy]
    · exact Or.inr ⟨hx, y_of_x hx hy⟩
  · rintro (rfl | ⟨hx, hy⟩)
    · rw [zero_x, zero_y]; simp [hz]
    · rw [hx, hy]; simp [hz]

/-- C38 is refuted on every complete Edwards curve: `new_point(0, -1)` succeeds, `is_zero()` says true, and yet the point is
not `==` to `identity()`. -/
theorem _root_.Redox.Props.C38_refuted [he : ECurve p e] :
    ∃ P I, (do e.newPoint (← e.f.zero) (← (← e.f.one).neg)) = R.ok P ∧ e.identity = R.ok I ∧
      P.isZero = true ∧ P.eq I = R.ok false := by
  have two := (instEdCurve p e).two
  refine ⟨pt e (0 : ZMod p) (-1) (0 * -1) 1, pt e (0 : ZMod p) 1 0 1, ?_, identity_pt he.params, ?_, ?_⟩
  · rw [he.params.field, zero_eq, R.ok_bind, one_eq, R.ok_bind, neg_el, R.ok_bind, newPoint_pt he.params,
      if_pos (by ring)]
  · rw [isZero_pt]; simp
  · rw [eq_pt]
    congr 1
    rw [decide_eq_false_iff_not]
    rintro ⟨-, -, h, -⟩
    exact two (by linear_combination -h)

end

example : (do let P ← toyE.newPoint ⟨0, ⟨7⟩⟩ ⟨6, ⟨7⟩⟩; return P.isZero) = R.ok true := by decide +kernel

/-! ## C31 -/

/-- C31, Edwards: points of curves that differ in any parameter cannot be added or subtracted, and a scalar of another
order cannot multiply: all three panic. `==` never says they are equal. -/
theorem _root_.Redox.Props.C31_edwards (P Q : Point) (k : Scalar) :
    (P.e ≠ Q.e → P.add Q = R.panic .differentCurves ∧ (∃ why, P.sub Q = R.panic why) ∧ P.eq Q ≠ R.ok true) ∧
    (k.r ≠ P.e.r → ∀ prof, P.mul prof k = R.panic .scalarMismatch) := by
  refine ⟨fun h => ?_, fun h prof => ?_⟩
  · have hb : (P.e == Q.e) = false := by simpa using h
    refine ⟨by simp [Point.add, hb], ?_, ?_⟩
    · cases hn : Q.neg with
      | panic w => exact ⟨w, by simp [Point.sub, hn]⟩
      | ok N =>
        have hNe : N.e = Q.e := by
          obtain ⟨x, _, hn⟩ := R.bind_eq_ok.1 hn
          obtain ⟨t, _, hn⟩ := R.bind_eq_ok.1 hn
          obtain ⟨b, _, hn⟩ := R.bind_eq_ok.1 hn
          rw [doIfEq] at hn
          split_ifs at hn
          simp only [R.ok.injEq] at hn
          rw [← hn]
        exact ⟨.differentCurves, by simp [Point.sub, hn, Point.add, hNe, hb]⟩
    · intro hq
      obtain ⟨a, _, hq⟩ := R.bind_eq_ok.1 hq
      obtain ⟨b, _, hq⟩ := R.bind_eq_ok.1 hq
      obtain ⟨c, _, hq⟩ := R.bind_eq_ok.1 hq
      obtain ⟨d, _, hq⟩ := R.bind_eq_ok.1 hq
      obtain ⟨f, _, hq⟩ := R.bind_eq_ok.1 hq
      obtain ⟨g, _, hq⟩ := R.bind_eq_ok.1 hq
      simp [hb] at hq
  · have hb : ((P.e.r : ℤ) == k.r) = false := by simpa using Ne.symm h
    simp [Point.mul, hb]

/-! ## C54 -/

section
variable (p : ℕ) [Fact p.Prime] (e : Curve)

/-- Every way of obtaining an Edwards point through the API. -/
inductive EBuilt : Point → Prop
  | newPoint {x y P} : Canon p x → Canon p y → e.newPoint x y = R.ok P → EBuilt P
  | identity {P} : e.identity = R.ok P → EBuilt P
  | generator {P} : Canon p e.gx → Canon p e.gy → e.getGenerator = R.ok P → EBuilt P
  | decode {buf P} : e.decode buf = R.ok (.ok P) → EBuilt P
  | neg {P S} : EBuilt P → P.neg = R.ok S → EBuilt S
  | add {P Q S} : EBuilt P → EBuilt Q → P.add Q = R.ok S → EBuilt S
  | sub {P Q S} : EBuilt P → EBuilt Q → P.sub Q = R.ok S → EBuilt S
  | mul {prof P k S} : EBuilt P → P.mul prof k = R.ok S → EBuilt S
  | normalize {P S} : EBuilt P → P.normalize = R.ok S → EBuilt S

end

section
variable {p : ℕ} [Fact p.Prime] {e : Curve}

/-- `sqrt` of a reduced element is a reduced element if it does not panic. -/
theorem newPoint_denotes (he : EParams p e) {x y : ZMod p} {P : Point} (h : e.newPoint (el x) (el y) = R.ok P) :
    ∃ A : eGroup p e, EDenotes p e P A := by
  rw [newPoint_pt he] at h
  split_ifs at h with h0
  rw [R.ok.injEq] at h
  exact ⟨⟨x, y, h0⟩, h ▸ denotes_affine ⟨x, y, h0⟩⟩

theorem decode_newPoint (he : EParams p e) {buf : List Byte} {P : Point} (h : e.decode buf = R.ok (.ok P)) :
    ∃ x y : ZMod p, e.newPoint (el x) (el y) = R.ok P := by
  haveI : Fact (2 < p) := ⟨ELink.two_lt_of he⟩
  unfold Curve.decode at h
  simp only at h
  split_ifs at h with h1
  · cases h
  obtain ⟨last, _, h⟩ := R.bind_eq_ok.1 h
  split_ifs at h with h2
  · cases h
  rw [he.field, elt_eq, R.ok_bind, R.fmul_ok, mul_el, R.ok_bind, one_eq, R.fneg_ok, neg_el,
    R.ok_bind, R.fadd_ok, add_el, R.ok_bind, ea he, ed he, R.fmul_ok, mul_el, R.fsub_ok, sub_el, R.ok_bind,
    R.fdiv_ok, div_el, R.ok_bind] at h
  obtain ⟨s, hs, h⟩ := R.bind_eq_ok.1 h
  rcases sqrt_el_cases he.odd _ with ⟨s', hs'⟩ | hs'
  · rw [hs', R.ok.injEq] at hs
    subst hs
    simp only [neg_el, zero_eq, R.ok_bind] at h
    split_ifs at h
    · cases h
    · exact ⟨_, _, by simpa [R.bind_eq_ok] using h⟩
    · exact ⟨_, _, by simpa [R.bind_eq_ok] using h⟩
  · rw [hs'] at hs; cases hs

theorem mulLoop_denotes [he : ECurve p e] {P : Point} {A : eGroup p e} (hP : EDenotes p e P A) (bits : List Bool)
    (Q S : Point) (hQ : EDenotes p e Q 0) (h : P.mulLoop bits Q = R.ok S) : ∃ B : eGroup p e, EDenotes p e S B := by
  obtain ⟨S', hS', hd⟩ := mulLoop_pt hP bits 0 Q (by rwa [zero_nsmul])
  rw [h, R.ok.injEq] at hS'
  exact ⟨_, hS' ▸ hd⟩

theorem EBuilt.denotes [he : ECurve p e] {P : Point} (h : EBuilt p e P) : ∃ A : eGroup p e, EDenotes p e P A := by
  have hp := he.params
  have ret : ∀ {r : R Point} {S : Point} {A : eGroup p e}, EReturns p e r A → r = R.ok S → ∃ A : eGroup p e, EDenotes p e S A := by
    rintro r S A ⟨S', hS', hd⟩ h
    rw [h, R.ok.injEq] at hS'
    exact ⟨A, hS' ▸ hd⟩
  induction h with
  | newPoint hx hy h =>
    obtain ⟨x, rfl⟩ := canon_iff.1 hx
    obtain ⟨y, rfl⟩ := canon_iff.1 hy
    exact newPoint_denotes hp h
  | identity h =>
    rw [identity_pt hp, R.ok.injEq] at h
    exact ⟨0, h ▸ identity_denotes⟩
  | generator hx hy h =>
    obtain ⟨x, hx⟩ := canon_iff.1 hx
    obtain ⟨y, hy⟩ := canon_iff.1 hy
    rw [Curve.getGenerator, hp.field, one_eq, hx, hy, R.fmul_ok, mul_el, R.ok_bind, R.ok_bind,
      newProyPoint_pt (ea hp) (ed hp)] at h
    split_ifs at h with h0
    rw [R.ok.injEq] at h
    obtain ⟨A, hA⟩ := exists_rep h0 one_ne_zero
    exact ⟨A, h ▸ denotes_iff.2 ⟨_, _, _, _, rfl, hA⟩⟩
  | decode h =>
    obtain ⟨x, y, h⟩ := decode_newPoint hp h
    exact newPoint_denotes hp h
  | neg _ h ih => obtain ⟨A, hA⟩ := ih; exact ret (neg_denotes hA) h
  | add _ _ h ih1 ih2 =>
    obtain ⟨A, hA⟩ := ih1
    obtain ⟨B, hB⟩ := ih2
    exact ret (add_denotes hA hB) h
  | sub _ _ h ih1 ih2 =>
    obtain ⟨A, hA⟩ := ih1
    obtain ⟨B, hB⟩ := ih2
    exact ret (C36_group_law p e _ _ A B hA hB).2.1 h
  | mul _ h ih =>
    obtain ⟨A, hA⟩ := ih
    rw [Point.mul, doIfEq] at h
    split_ifs at h
    obtain ⟨Q, hQ, h⟩ := R.bind_eq_ok.1 h
    obtain ⟨bits, _, h⟩ := R.bind_eq_ok.1 h
    rw [hA.1, identity_pt hp, R.ok.injEq] at hQ
    exact mulLoop_denotes hA bits Q _ (hQ ▸ identity_denotes) h
  | normalize _ h ih =>
    obtain ⟨A, hA⟩ := ih
    obtain ⟨x, y, t, z, rfl, hz, rfl, rfl, rfl⟩ := denotes_iff.1 hA
    rw [ELink.normalize_pt hp, R.ok.injEq] at h
    refine ⟨A, h ▸ denotes_iff.2 ⟨_, _, _, _, rfl, one_ne_zero, by field_simp, by field_simp, by field_simp⟩⟩

end

section
variable (p : ℕ) [Fact p.Prime] (e : Curve)

/-- C54, `new_point`, for every `a` and `d`: succeeds exactly on the solutions of `a x² + y² = 1 + d x² y²` and panics on
every other pair. -/
theorem _root_.Redox.Props.C54_new_point (he : EParams p e) (x y : FpElt) (hx : Canon p x) (hy : Canon p y) :
    (val p e.a * val p x ^ 2 + val p y ^ 2 = 1 + val p e.d * val p x ^ 2 * val p y ^ 2 →
      ∃ P, e.newPoint x y = R.ok P ∧ P.c.x = x ∧ P.c.y = y ∧ P.c.z.isOne ∧ val p P.c.t = val p x * val p y ∧
        e.isOnCurve P = R.ok true) ∧
    (val p e.a * val p x ^ 2 + val p y ^ 2 ≠ 1 + val p e.d * val p x ^ 2 * val p y ^ 2 →
      e.newPoint x y = R.panic .notValidPoint) := by
  obtain ⟨x, rfl⟩ := canon_iff.1 hx
  obtain ⟨y, rfl⟩ := canon_iff.1 hy
  rw [newPoint_pt he]
  simp only [val_el]
  refine ⟨fun h => ⟨_, if_pos h, rfl, rfl, by simp [pt], by simp [pt], ?_⟩, fun h => if_neg h⟩
  rw [isOnCurve_pt (ea he) (ed he), decide_eq_true]
  exact ⟨by linear_combination h, by ring⟩

/-- C54, histories: on a complete curve, whatever sequence of operations produced a point, it stands for a point of the
curve (so `Z` is never zero and `T` is consistent) and passes `is_on_curve`. -/
theorem _root_.Redox.Props.C54_history [he : ECurve p e] (P : Point) (h : EBuilt p e P) :
    (∃ A, EDenotes p e P A) ∧ e.isOnCurve P = R.ok true := by
  obtain ⟨A, hA⟩ := h.denotes
  refine ⟨⟨A, hA⟩, ?_⟩
  obtain ⟨x, y, t, z, rfl, hr⟩ := denotes_iff.1 hA
  rw [isOnCurve_pt (ea he.params) (ed he.params), decide_eq_true hr.onCurve]

/-- C54: on a complete curve a point with reduced coordinates that passes `is_on_curve` stands for a point of the curve,
unless all four coordinates are zero; and conversely. -/
theorem _root_.Redox.Props.C54_points [he : ECurve p e] (P : Point) (hP : P.e = e)
    (hx : Canon p P.c.x) (hy : Canon p P.c.y) (ht : Canon p P.c.t) (hz : Canon p P.c.z) :
    (∃ A, EDenotes p e P A) ↔ e.isOnCurve P = R.ok true ∧
      ¬ (P.c.x.isZero ∧ P.c.y.isZero ∧ P.c.t.isZero ∧ P.c.z.isZero) := by
  obtain ⟨e', ⟨x, y, t, z⟩⟩ := P
  obtain rfl : e' = e := hP
  obtain ⟨x, rfl⟩ := canon_iff.1 hx
  obtain ⟨y, rfl⟩ := canon_iff.1 hy
  obtain ⟨t, rfl⟩ := canon_iff.1 ht
  obtain ⟨z, rfl⟩ := canon_iff.1 hz
  change (∃ A, EDenotes p e' (pt e' x y t z) A) ↔ e'.isOnCurve (pt e' x y t z) = _ ∧ _
  rw [isOnCurve_pt (ea he.params) (ed he.params)]
  simp only [R.ok.injEq, decide_eq_true_eq, isZero_el]
  constructor
  · rintro ⟨A, hA⟩
    obtain ⟨x', y', t', z', h, hr⟩ := denotes_iff.1 hA
    obtain ⟨-, rfl, rfl, rfl, rfl⟩ := pt_inj.1 h
    exact ⟨hr.onCurve, fun h => hr.1 h.2.2.2⟩
  · rintro ⟨h, h0⟩
    have hzne : z ≠ 0 := by
      rintro rfl
      obtain ⟨h1, h2⟩ := h
      have sqd : ∀ u v : ZMod p, v ≠ 0 → u ^ 2 = val p e'.d * v ^ 2 → False := by
        intro u v hv huv
        exact he.d_nsq ⟨u / v, by field_simp; linear_combination -huv⟩
      have hxy : x = 0 ∨ y = 0 := by
        rw [mul_zero] at h2; exact mul_eq_zero.1 h2
      obtain ⟨α, hα⟩ := he.a_sq
      have hu : (α * x + y) ^ 2 = val p e'.d * t ^ 2 := by
        rcases hxy with rfl | rfl
        · linear_combination h1
        · rw [hα] at h1; linear_combination h1
      have ht : t = 0 := by
        by_contra ht
        exact sqd _ _ ht hu
      subst ht
      rcases hxy with rfl | rfl
      · have : y = 0 := by
          have : y ^ 2 = 0 := by linear_combination h1
          simpa using this
        exact h0 (by simp [this])
      · have : x = 0 := by
          have : val p e'.a * x ^ 2 = 0 := by linear_combination h1
          have := (mul_eq_zero.1 this).resolve_left he.a_ne
          simpa using this
        exact h0 (by simp [this])
    obtain ⟨A, hA⟩ := exists_rep h hzne
    exact ⟨A, denotes_iff.2 ⟨x, y, t, z, rfl, hA⟩⟩

/-- C54: the quadruple `(0 : 0 : 0 : 0)` passes `is_on_curve` on every curve and is `==` to every point of it. -/
theorem _root_.Redox.Props.C54_degenerate (he : EParams p e) (P : Point) (hP : P.e = e)
    (hx : Canon p P.c.x) (hy : Canon p P.c.y) (ht : Canon p P.c.t) (hz : Canon p P.c.z) :
    ∃ O : Point, O.e = e ∧ O.c.x.isZero ∧ O.c.y.isZero ∧ O.c.t.isZero ∧ O.c.z.isZero ∧
      e.isOnCurve O = R.ok true ∧ O.eq P = R.ok true := by
  obtain ⟨e', ⟨x, y, t, z⟩⟩ := P
  obtain rfl : e' = e := hP
  obtain ⟨x, rfl⟩ := canon_iff.1 hx
  obtain ⟨y, rfl⟩ := canon_iff.1 hy
  obtain ⟨t, rfl⟩ := canon_iff.1 ht
  obtain ⟨z, rfl⟩ := canon_iff.1 hz
  refine ⟨pt e' (0 : ZMod p) 0 0 0, rfl, by simp [pt], by simp [pt], by simp [pt], by simp [pt], ?_, ?_⟩
  · rw [isOnCurve_pt (ea he) (ed he), decide_eq_true]; exact ⟨by ring, by ring⟩
  · change (pt e' (0 : ZMod p) 0 0 0).eq (pt e' x y t z) = _
    rw [eq_pt]; simp

example : EBuilt 7 toyE ⟨toyE, ⟨⟨1, ⟨7⟩⟩, ⟨2, ⟨7⟩⟩, ⟨2, ⟨7⟩⟩, ⟨1, ⟨7⟩⟩⟩⟩ :=
  .generator ⟨rfl, by decide, by decide⟩ ⟨rfl, by decide, by decide⟩ (by decide +kernel)

example : toyE.newPoint ⟨3, ⟨7⟩⟩ ⟨4, ⟨7⟩⟩ = R.ok ⟨toyE, ⟨⟨3, ⟨7⟩⟩, ⟨4, ⟨7⟩⟩, ⟨5, ⟨7⟩⟩, ⟨1, ⟨7⟩⟩⟩⟩ ∧
    toyE.newPoint ⟨3, ⟨7⟩⟩ ⟨5, ⟨7⟩⟩ = R.panic .notValidPoint := ⟨by decide +kernel, by decide +kernel⟩

end
end Redox.Props.Ed
