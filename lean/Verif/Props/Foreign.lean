import Verif.Props.Validated

/-!
# C95: field elements of another field are refused

As in C94 nothing is assumed about the moduli. The only hypothesis on a curve is that its coefficients are elements of its field, which is
how the constructors of the library build them.
-/

namespace Redox.Props.Val

open Redox

theorem panics_of_post {α : Type} {r : R α} {φ : Prop} (h : Post r fun _ => φ) (hn : ¬ φ) : ∃ why, r = R.panic why := by
  cases r with
  | ok a => exact absurd (h a rfl) hn
  | panic w => exact ⟨w, rfl⟩

theorem red_ok {a c : FpElt} {n : ℤ} (h : a.red n = R.ok c) : c.f = a.f := by
  unfold FpElt.red at h
  obtain ⟨m, -, h⟩ := R.bind_eq_ok.1 h
  cases h; rfl

theorem doIf_ok {α : Type} {c : Bool} {r : R α} {w : Panic} {a : α} (h : doIfEq c r w = R.ok a) : c = true ∧ r = R.ok a := by
  cases c
  · exact absurd h (by simp [doIfEq_false])
  · exact ⟨rfl, h⟩

theorem mul_ok {a b c : FpElt} (h : a.mul b = R.ok c) : a.f = b.f ∧ c.f = a.f := by
  obtain ⟨h1, h2⟩ := doIf_ok h
  exact ⟨by simpa using h1, red_ok h2⟩

theorem add_ok {a b c : FpElt} (h : a.add b = R.ok c) : a.f = b.f ∧ c.f = a.f := by
  obtain ⟨h1, h2⟩ := doIf_ok h
  exact ⟨by simpa using h1, red_ok h2⟩

theorem sub_ok {a b c : FpElt} (h : a.sub b = R.ok c) : a.f = b.f ∧ c.f = a.f := by
  obtain ⟨h1, h2⟩ := doIf_ok h
  exact ⟨by simpa using h1, red_ok h2⟩

theorem neg_ok {a c : FpElt} (h : a.neg = R.ok c) : c.f = a.f := red_ok h

theorem sqr_ok {a c : FpElt} (h : a.powU32 2 = R.ok c) : c.f = a.f := (mul_ok (doIf_ok h).2).2

theorem powInt_ok {a c : FpElt} {k : ℤ} (h : a.powInt k = R.ok c) : c.f = a.f := by
  obtain ⟨m, -, h⟩ := R.bind_eq_ok.1 h
  obtain ⟨x, -, h⟩ := R.bind_eq_ok.1 h
  obtain ⟨v, -, h⟩ := R.bind_eq_ok.1 h
  exact red_ok h

theorem inv_ok {a c : FpElt} (h : FpElt.u32Div 1 a = R.ok c) : c.f = a.f := powInt_ok (doIf_ok h).2

theorem div_ok {a b c : FpElt} (h : a.div b = R.ok c) : a.f = b.f ∧ c.f = a.f := by
  obtain ⟨i, hi, h⟩ := R.bind_eq_ok.1 h
  have := mul_ok h
  exact ⟨this.1.trans (powInt_ok hi), this.2⟩

theorem elt_ok {f : Fp} {n : ℤ} {c : FpElt} (h : f.elt n = R.ok c) : c.f = f := by
  unfold Fp.elt at h
  obtain ⟨m, -, h⟩ := R.bind_eq_ok.1 h
  cases h; rfl

theorem one_ok {f : Fp} {c : FpElt} (h : f.one = R.ok c) : c.f = f := elt_ok h
theorem zero_ok {f : Fp} {c : FpElt} (h : f.zero = R.ok c) : c.f = f := elt_ok h
theorem prim_ok {f : Fp} {n : ℤ} {c : FpElt} (h : f.fromPrim n = R.ok c) : c.f = f := elt_ok h

theorem fmul_iff {X Y : R FpElt} {c : FpElt} : R.fmul X Y = R.ok c ↔ ∃ a, X = R.ok a ∧ ∃ b, Y = R.ok b ∧ a.mul b = R.ok c := by
  unfold R.fmul; simp only [R.bind_eq_ok]
theorem fadd_iff {X Y : R FpElt} {c : FpElt} : R.fadd X Y = R.ok c ↔ ∃ a, X = R.ok a ∧ ∃ b, Y = R.ok b ∧ a.add b = R.ok c := by
  unfold R.fadd; simp only [R.bind_eq_ok]
theorem fsub_iff {X Y : R FpElt} {c : FpElt} : R.fsub X Y = R.ok c ↔ ∃ a, X = R.ok a ∧ ∃ b, Y = R.ok b ∧ a.sub b = R.ok c := by
  unfold R.fsub; simp only [R.bind_eq_ok]
theorem fdiv_iff {X Y : R FpElt} {c : FpElt} : R.fdiv X Y = R.ok c ↔ ∃ a, X = R.ok a ∧ ∃ b, Y = R.ok b ∧ a.div b = R.ok c := by
  unfold R.fdiv; simp only [R.bind_eq_ok]
theorem fneg_iff {X : R FpElt} {c : FpElt} : R.fneg X = R.ok c ↔ ∃ a, X = R.ok a ∧ a.neg = R.ok c := by
  unfold R.fneg; simp only [R.bind_eq_ok]
theorem fsqr_iff {X : R FpElt} {c : FpElt} : R.fsqr X = R.ok c ↔ ∃ a, X = R.ok a ∧ a.powU32 2 = R.ok c := by
  unfold R.fsqr; simp only [R.bind_eq_ok]
theorem finv_iff {X : R FpElt} {c : FpElt} : R.finv X = R.ok c ↔ ∃ a, X = R.ok a ∧ FpElt.u32Div 1 a = R.ok c := by
  unfold R.finv; simp only [R.bind_eq_ok]

/-! Field tracking for nested expressions. -/

/-- A binary operation that returned had both operands in one field, and its result is in it. -/
theorem fmul_f {X Y : R FpElt} {c : FpElt} (h : R.fmul X Y = R.ok c) : ∃ a b, X = R.ok a ∧ Y = R.ok b ∧ a.f = c.f ∧ b.f = c.f := by
  obtain ⟨a, ha, b, hb, h⟩ := fmul_iff.1 h
  have := mul_ok h
  exact ⟨a, b, ha, hb, this.2.symm, by rw [this.2, this.1]⟩
theorem fadd_f {X Y : R FpElt} {c : FpElt} (h : R.fadd X Y = R.ok c) : ∃ a b, X = R.ok a ∧ Y = R.ok b ∧ a.f = c.f ∧ b.f = c.f := by
  obtain ⟨a, ha, b, hb, h⟩ := fadd_iff.1 h
  have := add_ok h
  exact ⟨a, b, ha, hb, this.2.symm, by rw [this.2, this.1]⟩
theorem fsub_f {X Y : R FpElt} {c : FpElt} (h : R.fsub X Y = R.ok c) : ∃ a b, X = R.ok a ∧ Y = R.ok b ∧ a.f = c.f ∧ b.f = c.f := by
  obtain ⟨a, ha, b, hb, h⟩ := fsub_iff.1 h
  have := sub_ok h
  exact ⟨a, b, ha, hb, this.2.symm, by rw [this.2, this.1]⟩
theorem fdiv_f {X Y : R FpElt} {c : FpElt} (h : R.fdiv X Y = R.ok c) : ∃ a b, X = R.ok a ∧ Y = R.ok b ∧ a.f = c.f ∧ b.f = c.f := by
  obtain ⟨a, ha, b, hb, h⟩ := fdiv_iff.1 h
  have := div_ok h
  exact ⟨a, b, ha, hb, this.2.symm, by rw [this.2, this.1]⟩
theorem fneg_f {X : R FpElt} {c : FpElt} (h : R.fneg X = R.ok c) : ∃ a, X = R.ok a ∧ a.f = c.f := by
  obtain ⟨a, ha, h⟩ := fneg_iff.1 h
  exact ⟨a, ha, (neg_ok h).symm⟩
theorem fsqr_f {X : R FpElt} {c : FpElt} (h : R.fsqr X = R.ok c) : ∃ a, X = R.ok a ∧ a.f = c.f := by
  obtain ⟨a, ha, h⟩ := fsqr_iff.1 h
  exact ⟨a, ha, (sqr_ok h).symm⟩
theorem finv_f {X : R FpElt} {c : FpElt} (h : R.finv X = R.ok c) : ∃ a, X = R.ok a ∧ a.f = c.f := by
  obtain ⟨a, ha, h⟩ := finv_iff.1 h
  exact ⟨a, ha, (inv_ok h).symm⟩

section weierstrass
open Weierstrass

theorem w_fields {e : Curve} {P : Point} {b : Bool} (h : e.isOnCurve P = R.ok b) :
    P.c.x.f = e.a.f ∧ P.c.y.f = e.a.f ∧ P.c.z.f = e.a.f := by
  unfold Curve.isOnCurve at h
  obtain ⟨x3, -, h⟩ := R.bind_eq_ok.1 h
  obtain ⟨bz, hbz, h⟩ := R.bind_eq_ok.1 h
  obtain ⟨ax, hax, h⟩ := R.bind_eq_ok.1 h
  obtain ⟨zz, hzz, h⟩ := R.bind_eq_ok.1 h
  obtain ⟨zy, hzy, -⟩ := R.bind_eq_ok.1 h
  obtain ⟨_, _, ⟨⟩, ⟨⟩, h1, h2⟩ := fmul_f hax
  obtain ⟨_, s, ⟨⟩, hs, h3, h4⟩ := fmul_f hzz
  obtain ⟨_, _, ⟨⟩, ⟨⟩, h5, h6⟩ := fadd_f hs
  obtain ⟨_, d, ⟨⟩, hd, h7, h8⟩ := fmul_f hzy
  obtain ⟨_, yy, ⟨⟩, hyy, h9, h10⟩ := fsub_f hd
  obtain ⟨_, ⟨⟩, h11⟩ := fsqr_f hyy
  have hz : P.c.z.f = e.a.f := by rw [h3, ← h4, ← h5, ← h1]
  refine ⟨h2.trans h1.symm, ?_, hz⟩
  rw [h11, h10, h8, ← h7, hz]

/-- C95 on short Weierstrass curves, for every curve whose coefficient `a` is an element of its field: every point object that passes
`is_on_curve` has its coordinates in the field of the curve, `is_on_curve` panics on a point with another coordinate, and `new_point`
panics if either coordinate is not an element of the field. -/
theorem _root_.Redox.Props.C95_weierstrass (e : Curve) (ha : e.a.f = e.f) :
    (∀ P, e.isOnCurve P = R.ok true → P.c.x.f = e.f ∧ P.c.y.f = e.f ∧ P.c.z.f = e.f) ∧
    (∀ P : Point, P.c.x.f ≠ e.f ∨ P.c.y.f ≠ e.f ∨ P.c.z.f ≠ e.f → ∃ why, e.isOnCurve P = R.panic why) ∧
    (∀ x y : FpElt, x.f ≠ e.f ∨ y.f ≠ e.f → ∃ why, e.newPoint x y = R.panic why) := by
  have key : ∀ P b, e.isOnCurve P = R.ok b → P.c.x.f = e.f ∧ P.c.y.f = e.f ∧ P.c.z.f = e.f := fun P b h => ha ▸ w_fields h
  refine ⟨fun P => key P true, fun P h => panics_of_post (φ := P.c.x.f = e.f ∧ P.c.y.f = e.f ∧ P.c.z.f = e.f) (key P) (by tauto),
    fun x y h => panics_of_post (φ := x.f = e.f ∧ y.f = e.f) ?_ (by tauto)⟩
  refine post_bind fun o => post_bind' fun b hb _ _ => ?_
  have := key _ _ hb
  exact ⟨this.1, this.2.1⟩

theorem sswu_new_f {e : Curve} {z : FpElt} {m : SSWU} (h : SSWU.new e z = R.ok m) : m.e = e ∧ m.z = z ∧ z.f = e.a.f := by
  unfold SSWU.new at h
  obtain ⟨v, hv, h⟩ := R.bind_eq_ok.1 h
  have hz : z.f = e.a.f := by
    unfold SSWU.verify at hv
    obtain ⟨_, -, hv⟩ := R.bind_eq_ok.1 hv
    obtain ⟨_, -, hv⟩ := R.bind_eq_ok.1 hv
    obtain ⟨x, hx, -⟩ := R.bind_eq_ok.1 hv
    obtain ⟨_, i, -, hi, -, -⟩ := fmul_f hx
    obtain ⟨za, hza, -⟩ := finv_f hi
    obtain ⟨_, _, ⟨⟩, ⟨⟩, h1, h2⟩ := fmul_f hza
    rw [h1, h2]
  cases v
  · exact absurd h (by simp)
  · simp only [Bool.not_true, Bool.false_eq_true, if_false] at h
    obtain ⟨_, -, h⟩ := R.bind_eq_ok.1 h
    obtain ⟨_, -, h⟩ := R.bind_eq_ok.1 h
    cases h
    exact ⟨rfl, rfl, hz⟩

theorem sswu_map_f {m : SSWU} {u : FpElt} {S : Point} (h : m.map u = R.ok S) : u.f = m.z.f := by
  unfold SSWU.map at h
  obtain ⟨t, ht, h⟩ := R.bind_eq_ok.1 h
  obtain ⟨s, hs, -⟩ := R.bind_eq_ok.1 h
  obtain ⟨_, ⟨⟩, h1⟩ := fsqr_f ht
  obtain ⟨_, _, ⟨⟩, ⟨⟩, h2, h3⟩ := fmul_f hs
  rw [h1, h2, h3]

theorem svdw_new_f {e : Curve} {z : FpElt} {m : SVDW} (h : SVDW.new e z = R.ok m) : m.e = e ∧ z.f = e.a.f := by
  unfold SVDW.new at h
  obtain ⟨v, hv, h⟩ := R.bind_eq_ok.1 h
  have hz : z.f = e.a.f := by
    unfold SVDW.verify at hv
    obtain ⟨_, -, hv⟩ := R.bind_eq_ok.1 hv
    obtain ⟨_, -, hv⟩ := R.bind_eq_ok.1 hv
    obtain ⟨_, -, hv⟩ := R.bind_eq_ok.1 hv
    obtain ⟨gz, hgz, -⟩ := R.bind_eq_ok.1 hv
    obtain ⟨p1, _, hp, ⟨⟩, h1, h2⟩ := fadd_f hgz
    obtain ⟨_, q, ⟨⟩, hq, h3, h4⟩ := fmul_f hp
    obtain ⟨_, _, -, ⟨⟩, h5, h6⟩ := fadd_f hq
    rw [h3, h6, h4]
  refine ⟨?_, hz⟩
  revert h
  refine (show Post _ fun m => m.e = e from ?_) m
  repeat' first
    | exact post_panic _
    | exact post_ok rfl
    | refine post_ite ?_ ?_
    | refine post_bind fun _ => ?_

theorem svdw_map_f {m : SVDW} {u : FpElt} {S : Point} (h : m.map u = R.ok S) : u.f = m.e.f := by
  unfold SVDW.map at h
  obtain ⟨t, ht, h⟩ := R.bind_eq_ok.1 h
  obtain ⟨s, hs, h⟩ := R.bind_eq_ok.1 h
  obtain ⟨r, hr, -⟩ := R.bind_eq_ok.1 h
  obtain ⟨_, ⟨⟩, h1⟩ := fsqr_f ht
  obtain ⟨_, _, ⟨⟩, ⟨⟩, h2, h3⟩ := fmul_f hs
  obtain ⟨o, _, ho, ⟨⟩, h4, h5⟩ := fadd_f hr
  rw [h1, h2, h5, ← h4, one_ok ho]
  rfl

theorem horner_f {f : Fp} {x c : FpElt} {l : List FpElt} (h : horner f x l = R.ok c) : c.f = f ∧ (l ≠ [] → x.f = f) := by
  induction l generalizing c with
  | nil => exact ⟨zero_ok h, fun h => absurd rfl h⟩
  | cons d l ih =>
    obtain ⟨s, _, hs, ⟨⟩, h1, -⟩ := fadd_f h
    obtain ⟨t, _, ht, ⟨⟩, h3, h4⟩ := fmul_f hs
    have := (ih ht).1
    exact ⟨by rw [← h1, ← h3, this], fun _ => by rw [h4, ← h3, this]⟩

theorem push_f {m : IsoMap} {P S : Point} (hl : m.x_num ≠ []) (h1 : m.e1.a.f = m.e1.f) (h : m.push P = R.ok S) :
    P.c.x.f = m.e0.f ∧ P.c.y.f = m.e0.f ∧ m.e0.f = m.e1.f := by
  unfold IsoMap.push at h
  obtain ⟨xn, hxn, h⟩ := R.bind_eq_ok.1 h
  obtain ⟨xd, hxd, h⟩ := R.bind_eq_ok.1 h
  obtain ⟨yn, hyn, h⟩ := R.bind_eq_ok.1 h
  obtain ⟨yd, hyd, h⟩ := R.bind_eq_ok.1 h
  obtain ⟨xx, hxx, h⟩ := R.bind_eq_ok.1 h
  obtain ⟨yy, hyy, h⟩ := R.bind_eq_ok.1 h
  obtain ⟨_, _, ⟨⟩, ⟨⟩, h2, -⟩ := fdiv_f hxx
  obtain ⟨_, d, ⟨⟩, hd, h3, h4⟩ := fmul_f hyy
  obtain ⟨_, _, ⟨⟩, ⟨⟩, h5, -⟩ := fdiv_f hd
  have hx := horner_f hxn
  have hy := horner_f hyn
  have hS : xx.f = m.e1.f := by
    by_contra hne
    obtain ⟨w, hw⟩ := (C95_weierstrass m.e1 h1).2.2 xx yy (.inl hne)
    rw [hw] at h; exact absurd h (by simp)
  exact ⟨hx.2 hl, by rw [h3, ← h4, ← h5]; exact hy.1, by rw [← hS, ← h2]; exact hx.1.symm⟩

/-- C95 for the maps to short Weierstrass curves: the constructors of `SSWU`, `SVDW` and `SSWUAB0` panic if `z` is not an element of the
curve's field, every map panics on a `u` that is not, and an isogeny panics on a point whose coordinates are not in the field of its domain
(an isogeny with at least one coefficient, whose codomain's coefficients are in its field). -/
theorem _root_.Redox.Props.C95_weierstrass_maps (e : Curve) (ha : e.a.f = e.f) (z u : FpElt) (iso : IsoMap) (h0 : iso.e0.a.f = iso.e0.f)
    (hl : iso.x_num ≠ []) :
    (z.f ≠ e.f → ∃ why, SSWU.new e z = R.panic why) ∧
    (∀ m, SSWU.new e z = R.ok m → u.f ≠ e.f → ∃ why, m.map u = R.panic why) ∧
    (z.f ≠ e.f → ∃ why, SVDW.new e z = R.panic why) ∧
    (∀ m, SVDW.new e z = R.ok m → u.f ≠ e.f → ∃ why, m.map u = R.panic why) ∧
    (z.f ≠ iso.e0.f → ∃ why, SSWUAB0.new e z iso.toIsogeny = R.panic why) ∧
    (∀ m, SSWUAB0.new e z iso.toIsogeny = R.ok m → u.f ≠ e.f → ∃ why, m.map u = R.panic why) ∧
    (e = iso.e1 → ∀ P : Point, P.c.x.f ≠ e.f ∨ P.c.y.f ≠ e.f → ∃ why, iso.push P = R.panic why) := by
  refine ⟨panics_of_post fun m hm => ha ▸ (sswu_new_f hm).2.2, fun m hm => panics_of_post fun S hS => ?_,
    panics_of_post fun m hm => ha ▸ (svdw_new_f hm).2, fun m hm => panics_of_post fun S hS => ?_,
    panics_of_post ?_, fun m hm => panics_of_post fun S hS => ?_, ?_⟩
  · have := sswu_new_f hm
    rw [sswu_map_f hS, this.2.1, this.2.2, ha]
  · rw [svdw_map_f hS, (svdw_new_f hm).1]
  · refine post_bind fun v => post_ite (post_panic _) (post_bind' fun d hd => post_bind' fun s hs _ _ => ?_)
    cases hd
    rw [(sswu_new_f hs).2.2, h0]
  · unfold SSWUAB0.new at hm
    obtain ⟨v, hv, hm⟩ := R.bind_eq_ok.1 hm
    cases v
    · exact absurd hm (by simp)
    have he : e = iso.e1 := by
      simp only [SSWUAB0.verify, IsoMap.toIsogeny, R.ok_bind, R.pure_eq, R.ok.injEq, Bool.and_eq_true, beq_iff_eq] at hv
      exact hv.1
    simp only [Bool.not_true, Bool.false_eq_true, if_false] at hm
    obtain ⟨d, hd, hm⟩ := R.bind_eq_ok.1 hm
    obtain ⟨s, hs, hm⟩ := R.bind_eq_ok.1 hm
    cases hm
    cases hd
    obtain ⟨T, hT, hS⟩ := R.bind_eq_ok.1 hS
    have h := sswu_new_f hs
    have hp := push_f hl (he ▸ ha) hS
    rw [sswu_map_f hT, h.2.1, h.2.2, h0, hp.2.2, he]
  · rintro rfl P hP
    refine panics_of_post (φ := P.c.x.f = iso.e1.f ∧ P.c.y.f = iso.e1.f) (fun S hS => ?_) (by tauto)
    have hp := push_f hl ha hS
    exact ⟨hp.1.trans hp.2.2, hp.2.1.trans hp.2.2⟩

end weierstrass

section montgomery
open Montgomery

theorem m_fields {e : Curve} {P : Point} {b : Bool} (h : e.isOnCurve P = R.ok b) :
    P.c.x.f = e.a.f ∧ P.c.y.f = e.a.f ∧ P.c.z.f = e.a.f := by
  unfold Curve.isOnCurve at h
  obtain ⟨l, hl, h⟩ := R.bind_eq_ok.1 h
  obtain ⟨r, hr, h⟩ := R.bind_eq_ok.1 h
  obtain ⟨q, _, hq, ⟨⟩, h1, h2⟩ := fmul_f hl
  obtain ⟨_, yy, ⟨⟩, hyy, h3, h4⟩ := fmul_f hq
  obtain ⟨_, ⟨⟩, h5⟩ := fsqr_f hyy
  obtain ⟨_, s, ⟨⟩, hs, h6, h7⟩ := fmul_f hr
  obtain ⟨s1, zz, hs1, hzz, h8, h9⟩ := fadd_f hs
  obtain ⟨xx, axz, hxx, haxz, h10, h11⟩ := fadd_f hs1
  obtain ⟨ax, _, hax, ⟨⟩, h12, h13⟩ := fmul_f haxz
  obtain ⟨_, _, ⟨⟩, ⟨⟩, h14, h15⟩ := fmul_f hax
  have hx : P.c.x.f = e.a.f := by rw [h15, h14]
  have hz : P.c.z.f = e.a.f := by rw [h13, ← h12, h14]
  refine ⟨hx, ?_, hz⟩
  rw [h5, h4, h1, ← h2, hz]

/-- C95 on Montgomery curves, see `C95_weierstrass`. -/
theorem _root_.Redox.Props.C95_montgomery (e : Curve) (ha : e.a.f = e.f) :
    (∀ P, e.isOnCurve P = R.ok true → P.c.x.f = e.f ∧ P.c.y.f = e.f ∧ P.c.z.f = e.f) ∧
    (∀ P : Point, P.c.x.f ≠ e.f ∨ P.c.y.f ≠ e.f ∨ P.c.z.f ≠ e.f → ∃ why, e.isOnCurve P = R.panic why) ∧
    (∀ x y : FpElt, x.f ≠ e.f ∨ y.f ≠ e.f → ∃ why, e.newPoint x y = R.panic why) := by
  have key : ∀ P b, e.isOnCurve P = R.ok b → P.c.x.f = e.f ∧ P.c.y.f = e.f ∧ P.c.z.f = e.f := fun P b h => ha ▸ m_fields h
  refine ⟨fun P => key P true, fun P h => panics_of_post (φ := P.c.x.f = e.f ∧ P.c.y.f = e.f ∧ P.c.z.f = e.f) (key P) (by tauto),
    fun x y h => panics_of_post (φ := x.f = e.f ∧ y.f = e.f) ?_ (by tauto)⟩
  refine post_bind fun o => post_bind' fun b hb _ _ => ?_
  have := key _ _ hb
  exact ⟨this.1, this.2.1⟩

theorem ell2_new_f {e : Curve} {z : FpElt} {m : Ell2} (h : Ell2.new e z = R.ok m) : m.e = e ∧ m.z = z := by
  revert h
  refine (show Post _ fun m => m.e = e ∧ m.z = z from ?_) m
  unfold Ell2.new
  repeat' first
    | exact post_panic _
    | exact post_ok ⟨rfl, rfl⟩
    | refine post_ite ?_ ?_
    | refine post_bind fun _ => ?_

theorem ell2_map_f {m : Ell2} {u : FpElt} {S : Point} (h : m.map u = R.ok S) : u.f = m.e.f ∧ m.z.f = m.e.f := by
  unfold Ell2.map at h
  obtain ⟨t, ht, h⟩ := R.bind_eq_ok.1 h
  obtain ⟨s, hs, h⟩ := R.bind_eq_ok.1 h
  obtain ⟨k, hk, h⟩ := R.bind_eq_ok.1 h
  obtain ⟨o, ho, h⟩ := R.bind_eq_ok.1 h
  obtain ⟨x, hx, -⟩ := R.bind_eq_ok.1 h
  obtain ⟨_, ⟨⟩, h1⟩ := fsqr_f ht
  obtain ⟨_, _, ⟨⟩, ⟨⟩, h2, h3⟩ := fmul_f hs
  obtain ⟨_, on, ⟨⟩, hon, h4, h5⟩ := fadd_f hx
  have hsf : s.f = m.e.f := by
    by_cases he : s = k
    · rw [he]; exact prim_ok hk
    · simp only [FpElt.cmov, beq_eq_false_iff_ne.2 he, Bool.false_eq_true, if_false] at h4
      rw [h4, ← h5]; exact one_ok hon
  exact ⟨by rw [h1, h3, hsf], by rw [h2, hsf]⟩

theorem push2_f {m : Ed2Mt25519} {P : Edwards.Point} {S : Point} (h : m.push P = R.ok S) (h0 : P.isZero = false) :
    P.c.x.f = m.invsqr_d.f ∧ P.c.y.f = m.invsqr_d.f ∧ P.c.z.f = m.invsqr_d.f := by
  unfold Ed2Mt25519.push at h
  simp only [h0, Bool.false_eq_true, if_false] at h
  obtain ⟨t, ht, h⟩ := R.bind_eq_ok.1 h
  obtain ⟨xx, hxx, h⟩ := R.bind_eq_ok.1 h
  obtain ⟨yy, hyy, -⟩ := R.bind_eq_ok.1 h
  obtain ⟨_, _, ⟨⟩, ⟨⟩, h1, h2⟩ := fadd_f ht
  obtain ⟨_, _, ⟨⟩, ⟨⟩, h3, h4⟩ := fmul_f hxx
  obtain ⟨w, _, hw, ⟨⟩, h5, h6⟩ := fmul_f hyy
  obtain ⟨_, _, ⟨⟩, ⟨⟩, h7, h8⟩ := fmul_f hw
  have hz : P.c.z.f = m.invsqr_d.f := by rw [h8, h7]
  exact ⟨by rw [h3, ← h4, ← h1, hz], by rw [h2, ← h1, hz], hz⟩

theorem push4_f {m : Ed4isoMt448} {P : Edwards.Point} {S : Point} (h : m.push P = R.ok S) (h0 : P.isZero = false) :
    P.c.x.f = m.e1.f ∧ P.c.y.f = m.e1.f ∧ P.c.z.f = m.e1.f := by
  unfold Ed4isoMt448.push at h
  simp only [h0, Bool.false_eq_true, if_false] at h
  obtain ⟨f2, hf2, h⟩ := R.bind_eq_ok.1 h
  obtain ⟨x2, hx2, h⟩ := R.bind_eq_ok.1 h
  obtain ⟨y2, hy2, h⟩ := R.bind_eq_ok.1 h
  obtain ⟨z2, hz2, h⟩ := R.bind_eq_ok.1 h
  obtain ⟨zz, hzz, h⟩ := R.bind_eq_ok.1 h
  obtain ⟨xx, hxx, h⟩ := R.bind_eq_ok.1 h
  obtain ⟨yy, hyy, -⟩ := R.bind_eq_ok.1 h
  obtain ⟨_, ⟨⟩, h1⟩ := fsqr_f hx2
  obtain ⟨_, ⟨⟩, h2⟩ := fsqr_f hy2
  obtain ⟨_, ⟨⟩, h3⟩ := fsqr_f hz2
  obtain ⟨_, s, ⟨⟩, hs, h4, h5⟩ := fmul_f hyy
  obtain ⟨r, _, hr, ⟨⟩, h6, h7⟩ := fsub_f hs
  obtain ⟨q, _, hq, ⟨⟩, h8, h9⟩ := fsub_f hr
  obtain ⟨_, _, ⟨⟩, ⟨⟩, h10, h11⟩ := fmul_f hq
  have hf : f2.f = m.e1.f := prim_ok hf2
  exact ⟨by rw [h1, h7, ← h6, ← h8, ← h10, hf], by rw [h2, h9, ← h8, ← h10, hf], by rw [h3, h11, ← h10, hf]⟩

/-- C95 for the maps to Montgomery curves. `Ell2::new` accepts any `z`, but if `z` or `u` is not an element of the curve's field then `map`
panics. The rational maps panic on a point with a coordinate `x`, `y` or `z` of another field, unless it looks like the identity
(`is_zero`), which they map without looking at the field. -/
theorem _root_.Redox.Props.C95_montgomery_maps (e : Curve) (z u : FpElt) (r2 : Ed2Mt25519) (r4 : Ed4isoMt448) (P : Edwards.Point)
    (hd : r2.invsqr_d.f = r2.e1.f) :
    (∀ m, Ell2.new e z = R.ok m → u.f ≠ e.f ∨ z.f ≠ e.f → ∃ why, m.map u = R.panic why) ∧
    (P.isZero = false → P.c.x.f ≠ r2.e1.f ∨ P.c.y.f ≠ r2.e1.f ∨ P.c.z.f ≠ r2.e1.f → ∃ why, r2.push P = R.panic why) ∧
    (P.isZero = false → P.c.x.f ≠ r4.e1.f ∨ P.c.y.f ≠ r4.e1.f ∨ P.c.z.f ≠ r4.e1.f → ∃ why, r4.push P = R.panic why) ∧
    (P.isZero = true → r2.push P = r2.e1.identity ∧ r4.push P = r4.e1.identity) := by
  refine ⟨fun m hm h => panics_of_post (φ := u.f = e.f ∧ z.f = e.f) (fun S hS => ?_) (by tauto),
    fun h0 h => panics_of_post (φ := P.c.x.f = r2.e1.f ∧ P.c.y.f = r2.e1.f ∧ P.c.z.f = r2.e1.f) (fun S hS => hd ▸ push2_f hS h0) (by tauto),
    fun h0 h => panics_of_post (φ := P.c.x.f = r4.e1.f ∧ P.c.y.f = r4.e1.f ∧ P.c.z.f = r4.e1.f) (fun S hS => push4_f hS h0) (by tauto),
    fun h0 => ?_⟩
  · obtain ⟨rfl, rfl⟩ := ell2_new_f hm
    exact ell2_map_f hS
  · simp [Ed2Mt25519.push, Ed4isoMt448.push, h0]

end montgomery

section edwards
open Edwards

theorem e_fields {e : Curve} {P : Point} {b : Bool} (h : e.isOnCurve P = R.ok b) :
    P.c.x.f = e.a.f ∧ P.c.y.f = e.a.f ∧ P.c.t.f = e.a.f ∧ P.c.z.f = e.a.f := by
  unfold Curve.isOnCurve at h
  obtain ⟨x2, hx2, h⟩ := R.bind_eq_ok.1 h
  obtain ⟨y2, hy2, h⟩ := R.bind_eq_ok.1 h
  obtain ⟨t2, ht2, h⟩ := R.bind_eq_ok.1 h
  obtain ⟨z2, hz2, h⟩ := R.bind_eq_ok.1 h
  obtain ⟨l1, hl1, h⟩ := R.bind_eq_ok.1 h
  obtain ⟨r1, hr1, h⟩ := R.bind_eq_ok.1 h
  obtain ⟨l2, hl2, h⟩ := R.bind_eq_ok.1 h
  obtain ⟨r2, hr2, h⟩ := R.bind_eq_ok.1 h
  obtain ⟨e1, he1, h⟩ := R.bind_eq_ok.1 h
  obtain ⟨_, ⟨⟩, h1⟩ := fsqr_f hx2
  obtain ⟨_, ⟨⟩, h2⟩ := fsqr_f hy2
  obtain ⟨_, ⟨⟩, h3⟩ := fsqr_f ht2
  obtain ⟨_, ⟨⟩, h4⟩ := fsqr_f hz2
  obtain ⟨q, _, hq, ⟨⟩, h5, h6⟩ := fadd_f hl1
  obtain ⟨_, _, ⟨⟩, ⟨⟩, h7, h8⟩ := fmul_f hq
  obtain ⟨s, _, hs, ⟨⟩, h9, h10⟩ := fadd_f hr1
  obtain ⟨_, _, ⟨⟩, ⟨⟩, h11, h12⟩ := fmul_f hs
  obtain ⟨_, _, ⟨⟩, ⟨⟩, h13, h14⟩ := fsub_f he1
  have hq' : q.f = e.a.f := h8.symm
  have hr : r1.f = e.a.f := by rw [h14, ← h13, ← h5, hq']
  exact ⟨by rw [h1, h7, hq'], by rw [h2, h6, ← h5, hq'], by rw [h3, h11, h9, hr], by rw [h4, h10, hr]⟩

/-- C95 on Edwards curves, see `C95_weierstrass`. -/
theorem _root_.Redox.Props.C95_edwards (e : Curve) (ha : e.a.f = e.f) :
    (∀ P, e.isOnCurve P = R.ok true → P.c.x.f = e.f ∧ P.c.y.f = e.f ∧ P.c.t.f = e.f ∧ P.c.z.f = e.f) ∧
    (∀ P : Point, P.c.x.f ≠ e.f ∨ P.c.y.f ≠ e.f ∨ P.c.t.f ≠ e.f ∨ P.c.z.f ≠ e.f → ∃ why, e.isOnCurve P = R.panic why) ∧
    (∀ x y : FpElt, x.f ≠ e.f ∨ y.f ≠ e.f → ∃ why, e.newPoint x y = R.panic why) := by
  have key : ∀ P b, e.isOnCurve P = R.ok b → P.c.x.f = e.f ∧ P.c.y.f = e.f ∧ P.c.t.f = e.f ∧ P.c.z.f = e.f :=
    fun P b h => ha ▸ e_fields h
  refine ⟨fun P => key P true,
    fun P h => panics_of_post (φ := P.c.x.f = e.f ∧ P.c.y.f = e.f ∧ P.c.t.f = e.f ∧ P.c.z.f = e.f) (key P) (by tauto),
    fun x y h => panics_of_post (φ := x.f = e.f ∧ y.f = e.f) ?_ (by tauto)⟩
  refine post_bind fun t => post_bind fun o => post_bind' fun b hb _ _ => ?_
  have := key _ _ hb
  exact ⟨this.1, this.2.1⟩

theorem pull2_f {m : Ed2Mt25519} {P : Montgomery.Point} {S : Point} (h : m.pull P = R.ok S) (h0 : P.isZero = false)
    (h2 : P.isTwoTorsion = false) : P.c.x.f = m.invsqr_d.f ∧ P.c.y.f = m.invsqr_d.f ∧ P.c.z.f = m.invsqr_d.f := by
  unfold Ed2Mt25519.pull at h
  simp only [h0, h2, Bool.false_eq_true, if_false] at h
  obtain ⟨ad, had, h⟩ := R.bind_eq_ok.1 h
  obtain ⟨sb, hsb, h⟩ := R.bind_eq_ok.1 h
  obtain ⟨xx, hxx, h⟩ := R.bind_eq_ok.1 h
  obtain ⟨yy, hyy, h⟩ := R.bind_eq_ok.1 h
  obtain ⟨_, _, ⟨⟩, ⟨⟩, a1, a2⟩ := fadd_f had
  obtain ⟨_, _, ⟨⟩, ⟨⟩, a3, a4⟩ := fsub_f hsb
  obtain ⟨w, _, hw, ⟨⟩, a5, a6⟩ := fmul_f hxx
  obtain ⟨_, _, ⟨⟩, ⟨⟩, a7, a8⟩ := fmul_f hw
  obtain ⟨_, _, ⟨⟩, ⟨⟩, a9, a10⟩ := fmul_f hyy
  have hx : P.c.x.f = m.invsqr_d.f := by rw [a8, a7]
  exact ⟨hx, by rw [a9, ← a10, ← a3, hx], by rw [a2, ← a1, hx]⟩

theorem pull4_f {m : Ed4isoMt448} {P : Montgomery.Point} {S : Point} (h : m.pull P = R.ok S) (h0 : P.isZero = false) :
    P.c.x.f = m.e0.f ∧ P.c.y.f = m.e0.f ∧ P.c.z.f = m.e0.f := by
  unfold Ed4isoMt448.pull at h
  simp only [h0, Bool.false_eq_true, if_false] at h
  obtain ⟨f2, hf2, h⟩ := R.bind_eq_ok.1 h
  obtain ⟨f4, hf4, h⟩ := R.bind_eq_ok.1 h
  obtain ⟨x2, hx2, h⟩ := R.bind_eq_ok.1 h
  obtain ⟨x3, hx3, h⟩ := R.bind_eq_ok.1 h
  obtain ⟨x4, hx4, h⟩ := R.bind_eq_ok.1 h
  obtain ⟨x5, hx5, h⟩ := R.bind_eq_ok.1 h
  obtain ⟨y2, hy2, h⟩ := R.bind_eq_ok.1 h
  obtain ⟨z2, hz2, h⟩ := R.bind_eq_ok.1 h
  obtain ⟨z3, hz3, h⟩ := R.bind_eq_ok.1 h
  obtain ⟨z4, hz4, h⟩ := R.bind_eq_ok.1 h
  obtain ⟨xx, hxx, -⟩ := R.bind_eq_ok.1 h
  obtain ⟨_, ⟨⟩, a1⟩ := fsqr_f hx2
  obtain ⟨q, s, hq, hs, a2, a3⟩ := fmul_f hxx
  obtain ⟨r, _, hr, ⟨⟩, a4, a5⟩ := fmul_f hq
  obtain ⟨_, _, ⟨⟩, ⟨⟩, a6, a7⟩ := fmul_f hr
  obtain ⟨_, _, ⟨⟩, ⟨⟩, a8, a9⟩ := fsub_f hs
  have hf : f4.f = m.e0.f := prim_ok hf4
  have hr' : r.f = m.e0.f := by rw [← a6, hf]
  exact ⟨by rw [a1, a8, a3, ← a2, ← a4, hr'], by rw [a7, hr'], by rw [a5, ← a4, hr']⟩

theorem edw_ell2_f {e : Curve} {z u : FpElt} {r : RationalMap} {e1 : Montgomery.Curve} (hc : r.codomain = R.ok e1) {m : Ell2} {S : Point}
    (hm : Ell2.new e z (some r) = R.ok m) (hS : m.map u = R.ok S) : u.f = e1.f ∧ z.f = e1.f := by
  unfold Ell2.new at hm
  obtain ⟨d, -, hm⟩ := R.bind_eq_ok.1 hm
  split at hm
  · exact absurd hm (by simp)
  · rw [hc, R.ok_bind] at hm
    obtain ⟨k, hk, hm⟩ := R.bind_eq_ok.1 hm
    simp only [R.pure_eq, R.ok.injEq] at hm
    subst hm
    obtain ⟨T, hT, -⟩ := R.bind_eq_ok.1 hS
    obtain ⟨rfl, rfl⟩ := ell2_new_f hk
    exact ell2_map_f hT

/-- C95 for the maps to Edwards curves, for rational maps between curves over the same field: Elligator 2 panics if `z` or `u` is not an
element of the field; the inverse rational maps panic on a point with a coordinate of another field, unless it is one of the points
that they handle before any arithmetic (the identity, and for the 25519 map the points that `is_two_torsion` reports). -/
theorem _root_.Redox.Props.C95_edwards_maps (e : Curve) (z u : FpElt) (r2 : Ed2Mt25519) (r4 : Ed4isoMt448) (P : Montgomery.Point)
    (hd : r2.invsqr_d.f = r2.e0.f) (hf2 : r2.e0.f = r2.e1.f) (hf4 : r4.e0.f = r4.e1.f) :
    (∀ m, Ell2.new e z (some r2.toRationalMap) = R.ok m → u.f ≠ r2.e0.f ∨ z.f ≠ r2.e0.f → ∃ why, m.map u = R.panic why) ∧
    (∀ m, Ell2.new e z (some r4.toRationalMap) = R.ok m → u.f ≠ r4.e0.f ∨ z.f ≠ r4.e0.f → ∃ why, m.map u = R.panic why) ∧
    (P.isZero = false → P.isTwoTorsion = false → P.c.x.f ≠ r2.e0.f ∨ P.c.y.f ≠ r2.e0.f ∨ P.c.z.f ≠ r2.e0.f →
      ∃ why, r2.pull P = R.panic why) ∧
    (P.isZero = false → P.c.x.f ≠ r4.e0.f ∨ P.c.y.f ≠ r4.e0.f ∨ P.c.z.f ≠ r4.e0.f → ∃ why, r4.pull P = R.panic why) := by
  refine ⟨fun m hm h => panics_of_post (φ := u.f = r2.e0.f ∧ z.f = r2.e0.f) (fun S hS => ?_) (by tauto),
    fun m hm h => panics_of_post (φ := u.f = r4.e0.f ∧ z.f = r4.e0.f) (fun S hS => ?_) (by tauto),
    fun h0 h2 h => panics_of_post (φ := P.c.x.f = r2.e0.f ∧ P.c.y.f = r2.e0.f ∧ P.c.z.f = r2.e0.f)
      (fun S hS => hd ▸ pull2_f hS h0 h2) (by tauto),
    fun h0 h => panics_of_post (φ := P.c.x.f = r4.e0.f ∧ P.c.y.f = r4.e0.f ∧ P.c.z.f = r4.e0.f) (fun S hS => pull4_f hS h0) (by tauto)⟩
  · rw [hf2]; exact edw_ell2_f (r := r2.toRationalMap) rfl hm hS
  · rw [hf4]; exact edw_ell2_f (r := r4.toRationalMap) rfl hm hS

end edwards

/-- The cases are met: a coordinate, a `z` and a `u` of GF(5) given to a curve over GF(7) that otherwise works. -/
example :
    let e : Weierstrass.Curve := ⟨⟨7⟩, ⟨1, ⟨7⟩⟩, ⟨4, ⟨7⟩⟩, 10, ⟨0, ⟨7⟩⟩, ⟨2, ⟨7⟩⟩, 1⟩
    (e.newPoint ⟨0, ⟨7⟩⟩ ⟨2, ⟨7⟩⟩).isOk ∧ e.newPoint ⟨0, ⟨5⟩⟩ ⟨2, ⟨7⟩⟩ = R.panic .differentFields ∧
    (Weierstrass.SSWU.new e ⟨3, ⟨7⟩⟩).isOk ∧ Weierstrass.SSWU.new e ⟨3, ⟨5⟩⟩ = R.panic .differentFields ∧
    (do (← Weierstrass.SSWU.new e ⟨3, ⟨7⟩⟩).map ⟨2, ⟨5⟩⟩) = R.panic .differentFields := by
  refine ⟨?_, ?_, ?_, ?_, ?_⟩ <;> decide +kernel

/-- The library's isogenies and rational maps meet the hypotheses. -/
example :
    (do let m ← get_isogeny_secp256k1; return decide (m.e0.a.f = m.e0.f ∧ m.x_num ≠ [] ∧ m.e1.a.f = m.e1.f)) = R.ok true ∧
    (do let m ← get_isogeny_bls12381g1; return decide (m.e0.a.f = m.e0.f ∧ m.x_num ≠ [] ∧ m.e1.a.f = m.e1.f)) = R.ok true ∧
    (do let m ← edwards25519_to_curve25519; return decide (m.invsqr_d.f = m.e0.f ∧ m.e0.f = m.e1.f)) = R.ok true ∧
    (do let m ← edwards448_to_curve448; return decide (m.e0.f = m.e1.f)) = R.ok true := by
  refine ⟨?_, ?_, ?_, ?_⟩ <;> decide +kernel

/-- `Ell2::new` accepts a `z` of another field, and the map made from it is of no use. -/
example :
    let e : Montgomery.Curve := ⟨⟨7⟩, ⟨3, ⟨7⟩⟩, ⟨1, ⟨7⟩⟩, ⟨1, ⟨7⟩⟩, 12, ⟨2, ⟨7⟩⟩, ⟨1, ⟨7⟩⟩, 1⟩
    (Montgomery.Ell2.new e ⟨3, ⟨5⟩⟩).isOk ∧ (do (← Montgomery.Ell2.new e ⟨3, ⟨5⟩⟩).map ⟨2, ⟨7⟩⟩) = R.panic .differentFields := by
  constructor <;> decide +kernel

end Redox.Props.Val
