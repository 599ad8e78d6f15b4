import Verif.Proofs.RatMapLink
import Verif.Props.EdwPoints
import Verif.Props.MontPoints
import Verif.Instances.Edwards25519
import Verif.Instances.Curve25519

/-!
# C47: the map between edwards25519 and curve25519
-/

set_option linter.unusedSectionVars false

namespace Redox.Props.Bir

open Spec Edw

section
variable {p : ℕ} [Fact p.Prime] {m : Ed2Mt25519} [he0 : ECurve p m.e0]

theorem corr_two {c : ZMod p} {A : eGroup p m.e0} {B : (mGroup p m.e1).Point} (hc : Corresponds c A B) (hx : A.x = 0)
    (h0 : A ≠ 0) : A = eTwo p m.e0 := by
  have hy : A.y ≠ 1 := fun hy => h0 (by ext; exacts [hx, hy])
  ext
  · exact hx
  · exact y_of_x hx hy

/-- `push` on all points other than `(0, -1)`. -/
theorem push_denotes (h : Ed2MtOK p m) {φ : eGroup p m.e0 ≃+ (mGroup p m.e1).Point}
    (hφ : ∀ A, Corresponds (val p m.invsqr_d) A (φ A)) {P : Edwards.Point} {A : eGroup p m.e0}
    (hP : EDenotes p m.e0 P A) (h2 : A ≠ eTwo p m.e0) : MReturns p m.e1 (m.push P) (φ A) := by
  obtain ⟨x, y, t, z, rfl, hz, rfl, rfl, rfl⟩ := ELink.denotes_iff.1 hP
  rw [RLink.push_pt h]
  by_cases hx : A.x = 0
  · have hA : A = 0 := by
      by_contra h0
      exact h2 (corr_two (hφ A) hx h0)
    subst hA
    rw [if_pos ⟨by rw [zero_x]; ring, by rw [zero_y, one_mul]; exact hz, by rw [zero_x]; ring, hz⟩, map_zero]
    exact ⟨_, rfl, MLink.denotes_iff.2 ⟨_, _, _, rfl, rfl, one_ne_zero, rfl⟩⟩
  · rw [if_neg (fun hh => hx ((mul_eq_zero.1 hh.1).resolve_right hz))]
    have hr : Mont.Rep (φ A) (A.x * z * (z + A.y * z)) (val p m.invsqr_d * z * (z + A.y * z))
        (A.x * z * (z - A.y * z)) := by
      have hc := hφ A
      rcases hB : φ A with _ | ⟨u, v, hn⟩
      · rw [hB] at hc; exact absurd hc.1 hx
      · rw [hB] at hc
        obtain ⟨f0, f1, f2, -⟩ := hc
        have f0' : 1 - A.y ≠ 0 := fun h => f0 (sub_eq_zero.1 h).symm
        have f2 := f2 hx
        refine ⟨?_, ?_, ?_⟩
        · rw [show A.x * z * (z - A.y * z) = A.x * z ^ 2 * (1 - A.y) by ring]; positivity
        · rw [f1]; field_simp
        · rw [f2, f1]; field_simp
    exact ⟨_, MLink.newProyPoint_rep h.e1 h.b_one hr, MLink.denotes_iff.2 ⟨_, _, _, rfl, hr⟩⟩

/-- A Montgomery point with `v = 0` is `(0, 0)` and corresponds to `(0, -1)`. -/
theorem corr_v_zero (h : Ed2MtOK p m) {A : eGroup p m.e0} {u : ZMod p} {hn : (mGroup p m.e1).Nonsingular u 0}
    (hc : Corresponds (val p m.invsqr_d) A (.some u 0 hn)) : u = 0 ∧ A = eTwo p m.e0 := by
  have two := (instEdCurve p m.e0).two
  have hc0 : val p m.invsqr_d ≠ 0 := by
    intro h0
    have := h.const
    rw [h0] at this
    have four : (4 : ZMod p) ≠ 0 := by
      rw [show (4 : ZMod p) = 2 * 2 by ring]; exact mul_ne_zero two two
    exact four (by linear_combination -this)
  obtain ⟨f0, f1, f2, -⟩ := hc
  have f0' : 1 - A.y ≠ 0 := fun h => f0 (sub_eq_zero.1 h).symm
  by_cases hx : A.x = 0
  · have hy := y_of_x hx f0
    refine ⟨by rw [f1, hy]; simp, ?_⟩
    ext; exacts [hx, hy]
  · have f2 := f2 hx
    have hu : u = 0 := by
      rw [eq_comm, div_eq_zero_iff] at f2
      exact (mul_eq_zero.1 (f2.resolve_right hx)).resolve_left hc0
    refine ⟨hu, ?_⟩
    exfalso
    rw [hu, eq_comm, div_eq_zero_iff] at f1
    have hy : A.y = -1 := by linear_combination f1.resolve_right f0'
    exact hx (A.x_eq_zero_of (by rw [hy]; ring))

/-- `pull` on all points, except representatives of `(0, 0)` with `z ≠ 1`. -/
theorem pull_denotes (h : Ed2MtOK p m) {φ : eGroup p m.e0 ≃+ (mGroup p m.e1).Point}
    (hφ : ∀ A, Corresponds (val p m.invsqr_d) A (φ A)) {Q : Montgomery.Point} {B : (mGroup p m.e1).Point}
    (hQ : MDenotes p m.e1 Q B) (h2 : B = φ (eTwo p m.e0) → Q.c.z.isOne) :
    EReturns p m.e0 (m.pull Q) (φ.symm B) := by
  haveI : Fact (2 < p) := ⟨ELink.two_lt_of he0.params⟩
  have two := (instEdCurve p m.e0).two
  obtain ⟨A, rfl⟩ := φ.surjective B
  rw [AddEquiv.symm_apply_apply]
  obtain ⟨x, y, z, rfl, hr⟩ := MLink.denotes_iff.1 hQ
  rw [RLink.pull_pt h]
  have hc := hφ A
  have hinj : φ A = φ (eTwo p m.e0) ↔ A = eTwo p m.e0 := φ.injective.eq_iff
  rw [hinj] at h2
  rcases hB : φ A with _ | ⟨u, v, hn⟩
  · rw [hB] at hr hc
    obtain ⟨rfl, hy, rfl⟩ := hr
    rw [if_pos ⟨rfl, hy, rfl⟩]
    have : A = 0 := by ext; exacts [hc.1, hc.2]
    subst this
    exact ⟨_, rfl, ELink.identity_denotes⟩
  · rw [hB] at hr hc
    obtain ⟨hz, rfl, rfl⟩ := hr
    rw [if_neg (fun hh => hz hh.2.2)]
    by_cases hv : v = 0
    · subst hv
      obtain ⟨rfl, hA⟩ := corr_v_zero h hc
      have hz1 : z = 1 := by simpa [MLink.pt] using h2 hA
      rw [if_pos ⟨by ring, hz1⟩, hA]
      exact ⟨_, rfl, ELink.denotes_iff.2 ⟨_, _, _, _, rfl, one_ne_zero, by simp [eTwo], by simp [eTwo], by simp [eTwo]⟩⟩
    · rw [if_neg (fun hh => (mul_ne_zero hv hz) hh.1)]
      obtain ⟨f0, f1, f2, f3⟩ := hc
      have hx : A.x ≠ 0 := fun hx => hv (f3 hx)
      have f2 := f2 hx
      have f0' : 1 - A.y ≠ 0 := fun h => f0 (sub_eq_zero.1 h).symm
      have e1 : u * (1 - A.y) = 1 + A.y := by rw [f1]; field_simp
      have e2 : v * A.x = val p m.invsqr_d * u := by rw [f2]; field_simp
      have hu1 : u + 1 ≠ 0 := by
        intro h1
        exact two (by linear_combination (1 - A.y) * h1 - e1)
      have hrr : ELink.ERep A (val p m.invsqr_d * (u * z) * (u * z + z)) (v * z * (u * z - z))
          (val p m.invsqr_d * (u * z) * (u * z - z)) (v * z * (u * z + z)) := by
        refine ⟨?_, ?_, ?_, ?_⟩
        · rw [show v * z * (u * z + z) = v * z ^ 2 * (u + 1) by ring]; positivity
        · linear_combination -z ^ 2 * (u + 1) * e2
        · linear_combination v * z ^ 2 * e1
        · linear_combination -z ^ 2 * (u - 1) * e2 + A.x * v * z ^ 2 * e1
      exact ⟨_, ELink.newProyPoint_rep hrr, ELink.denotes_iff.2 ⟨_, _, _, _, rfl, hrr⟩⟩

/-- What corresponds to `(0, -1)` is `(0, 0)`. -/
theorem corr_eTwo (h : Ed2MtOK p m) {φ : eGroup p m.e0 ≃+ (mGroup p m.e1).Point}
    (hφ : ∀ A, Corresponds (val p m.invsqr_d) A (φ A)) : ∃ hn, φ (eTwo p m.e0) = .some 0 0 hn := by
  have two := (instEdCurve p m.e0).two
  have hc := hφ (eTwo p m.e0)
  rcases hB : φ (eTwo p m.e0) with _ | ⟨u, v, hn⟩
  · rw [hB] at hc
    have h := hc.2
    simp only [eTwo] at h
    exact absurd (show (2 : ZMod p) = 0 by linear_combination -h) two
  · rw [hB] at hc
    obtain ⟨-, f1, -, f3⟩ := hc
    obtain rfl : v = 0 := f3 rfl
    obtain rfl : u = 0 := by rw [f1]; simp [eTwo]
    exact ⟨hn, rfl⟩

theorem eTwo_ne_zero : eTwo p m.e0 ≠ 0 := by
  have two := (instEdCurve p m.e0).two
  intro h
  have : (-1 : ZMod p) = 1 := congrArg EPt.y h
  exact two (by linear_combination -this)

theorem eTwo_add : eTwo p m.e0 + eTwo p m.e0 = 0 := by
  ext
  · rw [add_x, zero_x]; simp [eTwo]
  · rw [add_y, zero_y]; simp [eTwo]

end

section
variable (p : ℕ) [Fact p.Prime] (m : Ed2Mt25519) [he0 : ECurve p m.e0]

/-! ## C47 -/

/-- C47, in terms of the groups: the correspondence of RFC 7748 is an isomorphism `φ` of groups; `push` computes it for all
points and representatives except `(0, -1)`, and `pull` computes its inverse for all points and representatives except
representatives of `(0, 0)` with `z ≠ 1`. Partial: see the two refutations below for the exceptions. -/
theorem _root_.Redox.Props.C47_isomorphism_partial (h : Ed2MtOK p m) :
    ∃ φ : eGroup p m.e0 ≃+ (mGroup p m.e1).Point,
      (∀ A, Corresponds (val p m.invsqr_d) A (φ A)) ∧
      (∀ P A, EDenotes p m.e0 P A → A ≠ eTwo p m.e0 → MReturns p m.e1 (m.push P) (φ A)) ∧
      (∀ Q B, MDenotes p m.e1 Q B → (B = φ (eTwo p m.e0) → Q.c.z.isOne) → EReturns p m.e0 (m.pull Q) (φ.symm B)) := by
  obtain ⟨φ, hφ⟩ := RLink.exists_phi h
  exact ⟨φ, hφ, fun P A hP h2 => push_denotes h hφ hP h2, fun Q B hQ h2 => pull_denotes h hφ hQ h2⟩

/-- C47: `push` and `pull` never panic on a point of their domain, and what they return passes `is_on_curve`. -/
theorem _root_.Redox.Props.C47_no_panic (h : Ed2MtOK p m) :
    (∀ P A, EDenotes p m.e0 P A → ∃ Q, m.push P = R.ok Q ∧ m.e1.isOnCurve Q = R.ok true) ∧
    (∀ Q B, MDenotes p m.e1 Q B → ∃ P, m.pull Q = R.ok P ∧ m.e0.isOnCurve P = R.ok true) := by
  obtain ⟨φ, hφ⟩ := RLink.exists_phi h
  refine ⟨fun P A hP => ?_, fun Q B hQ => ?_⟩
  · by_cases h2 : A = eTwo p m.e0
    · obtain ⟨x, y, t, z, rfl, hz, rfl, rfl, rfl⟩ := ELink.denotes_iff.1 hP
      subst h2
      refine ⟨_, by rw [RLink.push_pt h, if_pos (by simp [eTwo, hz])], ?_⟩
      rw [MLink.isOnCurve_pt (MLink.ea h.e1) (MLink.eb h.e1), decide_eq_true (by ring)]
    · obtain ⟨Q, hQ, hd⟩ := push_denotes h hφ hP h2
      refine ⟨Q, hQ, ?_⟩
      obtain ⟨x, y, z, rfl, hr⟩ := MLink.denotes_iff.1 hd
      rw [MLink.isOnCurve_pt (MLink.ea h.e1) (MLink.eb h.e1), decide_eq_true (by
        rw [h.b_one]; exact MLink.Rep.onCurve hr)]
  · by_cases h2 : B = φ (eTwo p m.e0) → Q.c.z.isOne
    · obtain ⟨P, hP, hd⟩ := pull_denotes h hφ hQ h2
      refine ⟨P, hP, ?_⟩
      obtain ⟨x, y, t, z, rfl, hr⟩ := ELink.denotes_iff.1 hd
      rw [ELink.isOnCurve_pt (ELink.ea he0.params) (ELink.ed he0.params), decide_eq_true hr.onCurve]
    · push Not at h2
      obtain ⟨h2, h3⟩ := h2
      subst h2
      haveI : Fact (2 < p) := ⟨ELink.two_lt_of he0.params⟩
      obtain ⟨x, y, z, rfl, hr⟩ := MLink.denotes_iff.1 hQ
      obtain ⟨hn, hT⟩ := corr_eTwo h hφ
      rw [hT] at hr
      obtain ⟨hz, rfl, rfl⟩ := hr
      have hz1 : z ≠ 1 := by simpa [MLink.pt] using h3
      refine ⟨ELink.pt m.e0 (0 : ZMod p) 0 0 0, ?_, ?_⟩
      · rw [RLink.pull_pt h, if_neg (fun hh => hz hh.2.2), if_neg (fun hh => hz1 hh.2)]
        simp only [zero_mul, mul_zero]
        rw [ELink.newProyPoint_pt (ELink.ea he0.params) (ELink.ed he0.params), if_pos ⟨by ring, by ring⟩]
      · rw [ELink.isOnCurve_pt (ELink.ea he0.params) (ELink.ed he0.params), decide_eq_true ⟨by ring, by ring⟩]

/-- C47, observable through the API: `pull(push(P)) == P` unless `P` is `(0, -1)`, and `push(pull(Q)) == Q` unless `Q` is
`(0, 0)`. -/
theorem _root_.Redox.Props.C47_roundtrip_partial (h : Ed2MtOK p m) :
    (∀ P A, EDenotes p m.e0 P A → A ≠ eTwo p m.e0 →
      (do (← m.pull (← m.push P)).eq P) = R.ok true) ∧
    (∀ Q B, MDenotes p m.e1 Q B → ¬ (Q.c.x.isZero ∧ Q.c.y.isZero) →
      (do (← m.push (← m.pull Q)).eq Q) = R.ok true) := by
  haveI : Fact (2 < p) := ⟨ELink.two_lt_of he0.params⟩
  obtain ⟨φ, hφ, hpush, hpull⟩ := C47_isomorphism_partial p m h
  refine ⟨fun P A hP h2 => ?_, fun Q B hQ h2 => ?_⟩
  · obtain ⟨Q, hQ, hQd⟩ := hpush P A hP h2
    obtain ⟨P', hP', hPd⟩ := hpull Q _ hQd (fun h => absurd (φ.injective h) h2)
    rw [AddEquiv.symm_apply_apply] at hPd
    rw [hQ, R.ok_bind, hP', R.ok_bind, ELink.eq_of_denotes _ _ _ _ hPd hP, decide_eq_true rfl]
  · have hne : B ≠ φ (eTwo p m.e0) := by
      rintro rfl
      obtain ⟨hn, hT⟩ := corr_eTwo h hφ
      obtain ⟨x, y, z, rfl, hr⟩ := MLink.denotes_iff.1 hQ
      rw [hT] at hr
      obtain ⟨hz, rfl, rfl⟩ := hr
      exact h2 (by simp [MLink.pt])
    obtain ⟨P, hP, hPd⟩ := hpull Q B hQ (fun h => absurd h hne)
    obtain ⟨Q', hQ', hQd⟩ := hpush P _ hPd (fun h => hne (by rw [← h, AddEquiv.apply_symm_apply]))
    rw [AddEquiv.apply_symm_apply] at hQd
    rw [hP, R.ok_bind, hQ', R.ok_bind, Mo.eq_of_denotes _ _ _ _ hQd hQ, decide_eq_true rfl]

/-- C47, observable through the API: `push(P + P') == push(P) + push(P')` unless one of the three points is `(0, -1)`, when
the addition formulas of the Montgomery curve are complete. -/
theorem _root_.Redox.Props.C47_push_hom_partial (h : Ed2MtOK p m) (hs : SNotY p m.e1) (P P' : Edwards.Point)
    (A A' : eGroup p m.e0) (hP : EDenotes p m.e0 P A) (hP' : EDenotes p m.e0 P' A')
    (h1 : A ≠ eTwo p m.e0) (h2 : A' ≠ eTwo p m.e0) (h3 : A + A' ≠ eTwo p m.e0) :
    (do (← m.push (← P.add P')).eq (← (← m.push P).add (← m.push P'))) = R.ok true := by
  obtain ⟨φ, hφ, hpush, -⟩ := C47_isomorphism_partial p m h
  obtain ⟨S, hS, hSd⟩ := (C36_group_law p m.e0 P P' A A' hP hP').1
  obtain ⟨Q, hQ, hQd⟩ := hpush P A hP h1
  obtain ⟨Q', hQ', hQd'⟩ := hpush P' A' hP' h2
  obtain ⟨T, hT, hTd⟩ := hpush S _ hSd h3
  obtain ⟨U, hU, hUd⟩ := (C32_group_law_partial p m.e1 h.e1 h.b_one hs Q Q' _ _ hQd hQd').1
  rw [hS, R.ok_bind, hT, R.ok_bind, hQ, R.ok_bind, hQ', R.ok_bind, hU, R.ok_bind,
    Mo.eq_of_denotes _ _ _ _ hTd hUd, map_add, decide_eq_true rfl]

/-- C47, observable through the API: `pull(Q + Q') == pull(Q) + pull(Q')` unless one of the three points is `(0, 0)` with
`z ≠ 1`. -/
theorem _root_.Redox.Props.C47_pull_hom_partial (h : Ed2MtOK p m) (hs : SNotY p m.e1) (Q Q' : Montgomery.Point)
    (B B' : (mGroup p m.e1).Point) (hQ : MDenotes p m.e1 Q B) (hQ' : MDenotes p m.e1 Q' B')
    (h1 : Q.c.x.isZero → Q.c.y.isZero → Q.c.z.isOne) (h2 : Q'.c.x.isZero → Q'.c.y.isZero → Q'.c.z.isOne)
    (h3 : ∀ S, Q.add Q' = R.ok S → S.c.x.isZero → S.c.y.isZero → S.c.z.isOne) :
    (do (← m.pull (← Q.add Q')).eq (← (← m.pull Q).add (← m.pull Q'))) = R.ok true := by
  haveI : Fact (2 < p) := ⟨ELink.two_lt_of he0.params⟩
  obtain ⟨φ, hφ, -, hpull⟩ := C47_isomorphism_partial p m h
  have key : ∀ Q B, MDenotes p m.e1 Q B → (Q.c.x.isZero → Q.c.y.isZero → Q.c.z.isOne) →
      EReturns p m.e0 (m.pull Q) (φ.symm B) := by
    intro Q B hQ h1
    refine hpull Q B hQ ?_
    rintro rfl
    obtain ⟨hn, hT⟩ := corr_eTwo h hφ
    obtain ⟨x, y, z, rfl, hr⟩ := MLink.denotes_iff.1 hQ
    rw [hT] at hr
    obtain ⟨hz, rfl, rfl⟩ := hr
    exact h1 (by simp [MLink.pt]) (by simp [MLink.pt])
  obtain ⟨S, hS, hSd⟩ := (C32_group_law_partial p m.e1 h.e1 h.b_one hs Q Q' B B' hQ hQ').1
  obtain ⟨P, hP, hPd⟩ := key Q B hQ h1
  obtain ⟨P', hP', hPd'⟩ := key Q' B' hQ' h2
  obtain ⟨T, hT, hTd⟩ := key S _ hSd (h3 S hS)
  obtain ⟨U, hU, hUd⟩ := (C36_group_law p m.e0 P P' _ _ hPd hPd').1
  rw [hS, R.ok_bind, hT, R.ok_bind, hP, R.ok_bind, hP', R.ok_bind, hU, R.ok_bind,
    ELink.eq_of_denotes _ _ _ _ hTd hUd, map_add, decide_eq_true rfl]

/-- C47 is refuted at `(0, -1)`: every representative is pushed to the identity, so `pull(push(P)) == P` is false and `push` is
not injective. -/
theorem _root_.Redox.Props.C47_refuted_push (h : Ed2MtOK p m) (P : Edwards.Point)
    (hP : EDenotes p m.e0 P (eTwo p m.e0)) :
    m.push P = m.e1.identity ∧ (do (← m.pull (← m.push P)).eq P) = R.ok false := by
  obtain ⟨φ, hφ⟩ := RLink.exists_phi h
  obtain ⟨x, y, t, z, rfl, hz, hx, hy, ht⟩ := ELink.denotes_iff.1 hP
  have hpush : m.push (ELink.pt m.e0 x y t z) = R.ok (MLink.pt m.e1 (0 : ZMod p) 1 0) := by
    rw [RLink.push_pt h, if_pos (by rw [hx, hy, ht]; simp [eTwo, hz])]
  refine ⟨by rw [hpush, MLink.identity_pt h.e1], ?_⟩
  rw [hpush, R.ok_bind, RLink.pull_pt h, if_pos ⟨rfl, one_ne_zero, rfl⟩, R.ok_bind,
    ELink.eq_of_denotes _ _ _ _ ELink.identity_denotes hP, decide_eq_false (Ne.symm eTwo_ne_zero)]

/-- C47 is refuted at `(0, 0)`: a representative with `z ≠ 1` is pulled to the quadruple `(0 : 0 : 0 : 0)`, which stands for no
point of the curve. -/
theorem _root_.Redox.Props.C47_refuted_pull (h : Ed2MtOK p m) (Q : Montgomery.Point) (hn) (hQ : MDenotes p m.e1 Q (.some 0 0 hn))
    (hz1 : ¬ Q.c.z.isOne) : ∃ P, m.pull Q = R.ok P ∧ P.c.x.isZero ∧ P.c.y.isZero ∧ P.c.t.isZero ∧ P.c.z.isZero ∧
      ¬ ∃ A, EDenotes p m.e0 P A := by
  haveI : Fact (2 < p) := ⟨ELink.two_lt_of he0.params⟩
  obtain ⟨x, y, z, rfl, hz, rfl, rfl⟩ := MLink.denotes_iff.1 hQ
  have hz1 : z ≠ 1 := by simpa [MLink.pt] using hz1
  refine ⟨ELink.pt m.e0 (0 : ZMod p) 0 0 0, ?_, by simp [ELink.pt], by simp [ELink.pt], by simp [ELink.pt],
    by simp [ELink.pt], ?_⟩
  · rw [RLink.pull_pt h, if_neg (fun hh => hz hh.2.2), if_neg (fun hh => hz1 hh.2)]
    simp only [zero_mul, mul_zero]
    rw [ELink.newProyPoint_pt (ELink.ea he0.params) (ELink.ed he0.params), if_pos ⟨by ring, by ring⟩]
  · rintro ⟨A, hA⟩
    have := hA.2.2.2.2.2.1
    simp [ELink.pt] at this

/-- C47 is refuted: `push` is not a homomorphism. For `T` representing `(0, -1)` and every point `P` other than the identity and
`(0, -1)`, `push(P + T) == push(P) + push(T)` is false. -/
theorem _root_.Redox.Props.C47_refuted_hom (h : Ed2MtOK p m) (hs : SNotY p m.e1) (P T : Edwards.Point) (A : eGroup p m.e0)
    (hP : EDenotes p m.e0 P A) (hT : EDenotes p m.e0 T (eTwo p m.e0)) (h0 : A ≠ 0) (h2 : A ≠ eTwo p m.e0) :
    (do (← m.push (← P.add T)).eq (← (← m.push P).add (← m.push T))) = R.ok false := by
  obtain ⟨φ, hφ, hpush, -⟩ := C47_isomorphism_partial p m h
  obtain ⟨S, hS, hSd⟩ := (C36_group_law p m.e0 P T A _ hP hT).1
  obtain ⟨I, hI, hId⟩ := Mo.identity_denotes h.e1
  obtain ⟨Q, hQ, hQd⟩ := hpush P A hP h2
  obtain ⟨V, hV, hVd⟩ := hpush S _ hSd (fun h => h0 (by simpa using h))
  obtain ⟨U, hU, hUd⟩ := (C32_group_law_partial p m.e1 h.e1 h.b_one hs Q I _ _ hQd hId).1
  rw [hS, R.ok_bind, hV, R.ok_bind, hQ, R.ok_bind, (C47_refuted_push p m h T hT).1, hI, R.ok_bind, hU, R.ok_bind,
    Mo.eq_of_denotes _ _ _ _ hVd hUd, decide_eq_false]
  rw [add_zero, φ.injective.eq_iff]
  intro h
  exact eTwo_ne_zero (m := m) (by simpa using h)

end

/-! ## The library's map -/

open Inst

/-- The value of `edwards25519_to_curve25519()`. -/
def map25519 : Ed2Mt25519 where
  e0 := edwards25519
  e1 := curve25519
  invsqr_d := ⟨6853475219497561581579357271197624642482790079785650197046958215289687604742, ⟨curve25519_p⟩⟩

theorem map25519_eq : edwards25519_to_curve25519 = R.ok map25519 := by decide +kernel

instance map25519_e0 : ECurve curve25519_p map25519.e0 := edwards25519_valid.curve

theorem map25519_ok : Ed2MtOK curve25519_p map25519 := by
  refine ⟨curve25519_valid.curve, curve25519_valid.b_one, by unfold Canon; decide +kernel, ?_, ?_⟩
  all_goals
    unfold Spec.val
    norm_cast

/-- C47 for the map of the library: `edwards25519_to_curve25519()` succeeds, its curves are `EDWARDS25519` and `CURVE25519`, and it
has all the properties above: no panics, both round trips and both homomorphism laws outside the exceptional points. -/
theorem _root_.Redox.Props.C47_edwards25519_partial : ∃ m, edwards25519_to_curve25519 = R.ok m ∧
    EDWARDS25519 = R.ok m.e0 ∧ CURVE25519 = R.ok m.e1 ∧ Ed2MtOK curve25519_p m ∧ ECurve curve25519_p m.e0 ∧
    SNotY curve25519_p m.e1 ∧
    (∀ P A, EDenotes curve25519_p m.e0 P A → A ≠ eTwo curve25519_p m.e0 →
      (do (← m.pull (← m.push P)).eq P) = R.ok true) ∧
    (∀ Q B, MDenotes curve25519_p m.e1 Q B → ¬ (Q.c.x.isZero ∧ Q.c.y.isZero) →
      (do (← m.push (← m.pull Q)).eq Q) = R.ok true) :=
  ⟨map25519, map25519_eq, edwards25519_eq, curve25519_eq, map25519_ok, map25519_e0, curve25519_valid.complete,
    (C47_roundtrip_partial curve25519_p map25519 map25519_ok).1, (C47_roundtrip_partial curve25519_p map25519 map25519_ok).2⟩

/-- The hypotheses are met by a point which is not exceptional: the generators are exchanged. -/
example : (do (← map25519.push (← map25519.e0.getGenerator)).eq (← map25519.e1.getGenerator)) = R.ok true ∧
    (do (← map25519.pull (← map25519.e1.getGenerator)).eq (← map25519.e0.getGenerator)) = R.ok true :=
  ⟨by decide +kernel, by decide +kernel⟩

/-- The exceptional points are reachable: `(0, -1)` is accepted by `new_point`, and `(0, 0) + G - G` has `z ≠ 1`; its
image under `pull` is `==` to the generator. -/
example :
    (do
      let T ← map25519.e0.newPoint ⟨0, ⟨curve25519_p⟩⟩ ⟨curve25519_p - 1, ⟨curve25519_p⟩⟩
      (← map25519.push T).eq (← map25519.e1.identity)) = R.ok true ∧
    (do
      let Q ← map25519.e1.newPoint ⟨0, ⟨curve25519_p⟩⟩ ⟨0, ⟨curve25519_p⟩⟩
      let G ← map25519.e1.getGenerator
      (← map25519.pull (← (← Q.add G).sub G)).eq (← map25519.e0.getGenerator)) = R.ok true :=
  ⟨by decide +kernel, by decide +kernel⟩

end Redox.Props.Bir
