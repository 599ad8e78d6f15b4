import Verif.Model.RationalMaps
import Verif.Proofs.FpLink

/-!
# C94: every point that is returned has passed the curve check

No hypothesis is made about the arguments: the moduli may be composite, the curve singular, the coordinates of any field, unreduced or off
the curve, the isogeny and the rational map any value of the library's types.
-/

namespace Redox.Props.Val

open Redox

/-- If the call returns, the value that it returns satisfies `φ`. -/
def Post {α : Type} (r : R α) (φ : α → Prop) : Prop := ∀ a, r = R.ok a → φ a

theorem post_ok {α : Type} {φ : α → Prop} {a : α} (h : φ a) : Post (R.ok a) φ := by
  rintro _ ⟨⟩; exact h

theorem post_panic {α : Type} {φ : α → Prop} (w : Panic) : Post (R.panic w) φ := by
  rintro _ ⟨⟩

theorem post_bind {α β : Type} {φ : β → Prop} {r : R α} {f : α → R β} (h : ∀ a, Post (f a) φ) : Post (r >>= f) φ := by
  intro b hb
  obtain ⟨a, -, ha⟩ := R.bind_eq_ok.1 hb
  exact h a b ha

theorem post_bind' {α β : Type} {φ : β → Prop} {r : R α} {f : α → R β} (h : ∀ a, r = R.ok a → Post (f a) φ) : Post (r >>= f) φ := by
  intro b hb
  obtain ⟨a, h1, ha⟩ := R.bind_eq_ok.1 hb
  exact h a h1 b ha

theorem post_ite {α : Type} {φ : α → Prop} {c : Prop} [Decidable c] {r s : R α} (hr : Post r φ) (hs : Post s φ) :
    Post (if c then r else s) φ := by
  split
  exacts [hr, hs]

theorem post_doIfEq {α : Type} {φ : α → Prop} {c : Bool} {r : R α} {w : Panic} (h : Post r φ) : Post (doIfEq c r w) φ := by
  cases c
  exacts [post_panic w, h]

theorem Post.mono {α : Type} {φ ψ : α → Prop} {r : R α} (h : Post r φ) (H : ∀ a, φ a → ψ a) : Post r ψ := fun a ha => H a (h a ha)

section weierstrass
open Weierstrass

/-- `S` is a point object of the curve `e` and `e.is_on_curve(S)` answers `true`. -/
def WOn (e : Curve) (S : Point) : Prop := S.e = e ∧ e.isOnCurve S = R.ok true

theorem w_proy (e : Curve) (c : ProyCoordinates) : Post (e.newProyPoint c) (WOn e) := by
  intro S hS
  unfold Curve.newProyPoint at hS
  obtain ⟨b, hb, hS⟩ := R.bind_eq_ok.1 hS
  cases b
  · exact absurd hS (by simp [doIfEq_false])
  · cases hS; exact ⟨rfl, hb⟩

theorem w_new (e : Curve) (x y : FpElt) : Post (e.newPoint x y) (WOn e) := by
  refine post_bind fun o => ?_
  intro S hS
  obtain ⟨b, hb, hS⟩ := R.bind_eq_ok.1 hS
  cases b
  · exact absurd hS (by simp [doIfEq_false])
  · cases hS; exact ⟨rfl, hb⟩

theorem w_identity (e : Curve) : Post e.identity (WOn e) := post_bind fun _ => post_bind fun _ => post_bind fun _ => w_proy e _

theorem w_decode (e : Curve) (buf : List Byte) : Post (e.decode buf) (fun r => ∀ S, r = .ok S → WOn e S) := by
  unfold Curve.decode
  repeat' first
    | exact post_bind' fun S hS => post_ok fun S' h => by cases h; exact w_identity e _ hS
    | exact post_bind' fun S hS => post_ok fun S' h => by cases h; exact w_new e _ _ _ hS
    | exact post_ok fun S' h => by cases h
    | refine post_ite ?_ ?_
    | refine post_bind fun _ => ?_

theorem w_add (P Q : Point) : Post (P.add Q) (WOn P.e) := post_doIfEq (post_bind fun _ => w_proy _ _)

theorem w_neg (P : Point) : Post P.neg (WOn P.e) := post_bind fun _ => w_proy _ _

theorem w_mulLoop (P : Point) (bits : List Bool) : ∀ q, WOn P.e q → Post (P.mulLoop bits q) (WOn P.e) := by
  induction bits with
  | nil => exact fun q hq => post_ok hq
  | cons k bits ih =>
    intro q hq
    refine post_bind' fun q1 h1 => ?_
    have hq1 : WOn P.e q1 := by
      have := (post_bind (φ := WOn q.e) fun c => w_proy q.e c) _ h1
      rwa [hq.1] at this
    cases k
    · exact ih _ hq1
    · refine post_bind' fun q2 h2 => ih _ ?_
      have := w_add q1 P q2 h2
      rwa [hq1.1] at this

/-- C94 on short Weierstrass curves. For every curve value, every coordinates, byte string, points, scalar and build profile: a point returned
by `new_point`, `identity`, `get_generator`, `decode`, unary minus, `+`, `-` or `*` is a point of the curve of the (left) argument and
passes its `is_on_curve`. -/
theorem _root_.Redox.Props.C94_weierstrass (e : Curve) (P Q : Point) (prof : Profile) :
    (∀ x y S, e.newPoint x y = R.ok S → S.e = e ∧ e.isOnCurve S = R.ok true) ∧
    (∀ S, e.identity = R.ok S → S.e = e ∧ e.isOnCurve S = R.ok true) ∧
    (∀ S, e.getGenerator = R.ok S → S.e = e ∧ e.isOnCurve S = R.ok true) ∧
    (∀ buf S, e.decode buf = R.ok (.ok S) → S.e = e ∧ e.isOnCurve S = R.ok true) ∧
    (∀ S, P.neg = R.ok S → S.e = P.e ∧ P.e.isOnCurve S = R.ok true) ∧
    (∀ S, P.add Q = R.ok S → S.e = P.e ∧ P.e.isOnCurve S = R.ok true) ∧
    (∀ S, P.sub Q = R.ok S → S.e = P.e ∧ P.e.isOnCurve S = R.ok true) ∧
    (∀ k S, P.mul prof k = R.ok S → S.e = P.e ∧ P.e.isOnCurve S = R.ok true) := by
  refine ⟨fun x y => w_new e x y, w_identity e, post_bind fun _ => w_proy e _, fun buf S h => w_decode e buf _ h S rfl, w_neg P, w_add P Q,
    post_bind fun _ => w_add P _, fun k => post_doIfEq (post_bind' fun q hq => post_bind fun b => w_mulLoop P b q (w_identity _ q hq))⟩

theorem w_sswu (m : SSWU) (u : FpElt) : Post (m.map u) (WOn m.e) := by
  unfold SSWU.map
  repeat' first
    | exact w_new _ _ _
    | refine post_bind fun _ => ?_

theorem w_svdw (m : SVDW) (u : FpElt) : Post (m.map u) (WOn m.e) := by
  unfold SVDW.map
  repeat' first
    | exact w_new _ _ _
    | refine post_bind fun _ => ?_

theorem w_push (m : IsoMap) (P : Point) : Post (m.push P) (WOn m.e1) := by
  unfold IsoMap.push
  repeat' first
    | exact w_new _ _ _
    | refine post_bind fun _ => ?_

/-- C94 for the maps to short Weierstrass curves, for every curve, every `z` that the constructors accept and every argument `u`: a point
returned by `map` is a point of the curve given to the constructor and passes its `is_on_curve`. The isogenies of `SSWUAB0` are those that
the library's isogeny type can express. -/
theorem _root_.Redox.Props.C94_weierstrass_maps (e : Curve) (z u : FpElt) (iso : IsoMap) (P : Point) :
    (∀ m S, SSWU.new e z = R.ok m → m.map u = R.ok S → S.e = e ∧ e.isOnCurve S = R.ok true) ∧
    (∀ m S, SVDW.new e z = R.ok m → m.map u = R.ok S → S.e = e ∧ e.isOnCurve S = R.ok true) ∧
    (∀ m S, SSWUAB0.new e z iso.toIsogeny = R.ok m → m.map u = R.ok S → S.e = e ∧ e.isOnCurve S = R.ok true) ∧
    (∀ S, iso.push P = R.ok S → S.e = iso.e1 ∧ iso.e1.isOnCurve S = R.ok true) := by
  refine ⟨fun m S hm hS => ?_, fun m S hm hS => ?_, fun m S hm hS => ?_, w_push iso P⟩
  · have : m.e = e := by
      revert hm
      refine (show Post (SSWU.new e z) fun m => m.e = e from ?_) m
      unfold SSWU.new
      repeat' first
        | exact post_panic _
        | exact post_ok rfl
        | refine post_ite ?_ ?_
        | refine post_bind fun _ => ?_
    exact this ▸ w_sswu m u S hS
  · have : m.e = e := by
      revert hm
      refine (show Post (SVDW.new e z) fun m => m.e = e from ?_) m
      unfold SVDW.new
      repeat' first
        | exact post_panic _
        | exact post_ok rfl
        | refine post_ite ?_ ?_
        | refine post_bind fun _ => ?_
    exact this ▸ w_svdw m u S hS
  · have h : m.iso = iso.toIsogeny ∧ iso.e1 = e := by
      revert hm
      refine (show Post (SSWUAB0.new e z iso.toIsogeny) fun m => m.iso = iso.toIsogeny ∧ iso.e1 = e from ?_) m
      unfold SSWUAB0.new
      refine post_bind' fun v hv => ?_
      cases v
      · exact post_panic _
      · have he : iso.e1 = e := by
          simp only [SSWUAB0.verify, IsoMap.toIsogeny, R.ok_bind, R.pure_eq, R.ok.injEq, Bool.and_eq_true, beq_iff_eq] at hv
          exact hv.1.symm
        refine post_bind fun _ => post_bind fun _ => post_ok ⟨rfl, he⟩
    unfold SSWUAB0.map at hS
    obtain ⟨T, -, hS⟩ := R.bind_eq_ok.1 hS
    rw [h.1] at hS
    exact h.2 ▸ w_push iso T S hS

end weierstrass

section montgomery
open Montgomery

/-- `S` is a point object of the curve `e` and `e.is_on_curve(S)` answers `true`. -/
def MOn (e : Curve) (S : Point) : Prop := S.e = e ∧ e.isOnCurve S = R.ok true

theorem m_proy (e : Curve) (c : ProyCoordinates) : Post (e.newProyPoint c) (MOn e) := by
  intro S hS
  unfold Curve.newProyPoint at hS
  obtain ⟨b, hb, hS⟩ := R.bind_eq_ok.1 hS
  cases b
  · exact absurd hS (by simp [doIfEq_false])
  · cases hS; exact ⟨rfl, hb⟩

theorem m_new (e : Curve) (x y : FpElt) : Post (e.newPoint x y) (MOn e) := by
  refine post_bind fun o => ?_
  intro S hS
  obtain ⟨b, hb, hS⟩ := R.bind_eq_ok.1 hS
  cases b
  · exact absurd hS (by simp [doIfEq_false])
  · cases hS; exact ⟨rfl, hb⟩

theorem m_identity (e : Curve) : Post e.identity (MOn e) := post_bind fun _ => post_bind fun _ => post_bind fun _ => m_proy e _

theorem m_decode (e : Curve) (buf : List Byte) : Post (e.decode buf) (fun r => ∀ S, r = .ok S → MOn e S) := by
  unfold Curve.decode
  repeat' first
    | exact post_bind' fun S hS => post_ok fun S' h => by cases h; exact m_identity e _ hS
    | exact post_bind' fun S hS => post_ok fun S' h => by cases h; exact m_new e _ _ _ hS
    | exact post_ok fun S' h => by cases h
    | refine post_ite ?_ ?_
    | refine post_bind fun _ => ?_

theorem m_add (P Q : Point) : Post (P.add Q) (MOn P.e) := post_doIfEq (post_bind fun _ => m_proy _ _)

theorem m_neg (P : Point) : Post P.neg (MOn P.e) := post_bind fun _ => m_proy _ _

theorem m_mulLoop (P : Point) (bits : List Bool) : ∀ q, MOn P.e q → Post (P.mulLoop bits q) (MOn P.e) := by
  induction bits with
  | nil => exact fun q hq => post_ok hq
  | cons k bits ih =>
    intro q hq
    refine post_bind' fun q1 h1 => ?_
    have hq1 : MOn P.e q1 := by
      have := m_add q q _ h1
      rwa [hq.1] at this
    cases k
    · exact ih _ hq1
    · refine post_bind' fun q2 h2 => ih _ ?_
      have := m_add q1 P q2 h2
      rwa [hq1.1] at this

/-- C94 on Montgomery curves, see `C94_weierstrass`. -/
theorem _root_.Redox.Props.C94_montgomery (e : Curve) (P Q : Point) (prof : Profile) :
    (∀ x y S, e.newPoint x y = R.ok S → S.e = e ∧ e.isOnCurve S = R.ok true) ∧
    (∀ S, e.identity = R.ok S → S.e = e ∧ e.isOnCurve S = R.ok true) ∧
    (∀ S, e.getGenerator = R.ok S → S.e = e ∧ e.isOnCurve S = R.ok true) ∧
    (∀ buf S, e.decode buf = R.ok (.ok S) → S.e = e ∧ e.isOnCurve S = R.ok true) ∧
    (∀ S, P.neg = R.ok S → S.e = P.e ∧ P.e.isOnCurve S = R.ok true) ∧
    (∀ S, P.add Q = R.ok S → S.e = P.e ∧ P.e.isOnCurve S = R.ok true) ∧
    (∀ S, P.sub Q = R.ok S → S.e = P.e ∧ P.e.isOnCurve S = R.ok true) ∧
    (∀ k S, P.mul prof k = R.ok S → S.e = P.e ∧ P.e.isOnCurve S = R.ok true) := by
  refine ⟨fun x y => m_new e x y, m_identity e, post_bind fun _ => m_proy e _, fun buf S h => m_decode e buf _ h S rfl, m_neg P, m_add P Q,
    post_bind fun _ => m_add P _, fun k => post_doIfEq (post_bind' fun q hq => post_bind fun b => m_mulLoop P b q (m_identity _ q hq))⟩

theorem m_ell2 (m : Ell2) (u : FpElt) : Post (m.map u) (MOn m.e) := by
  unfold Ell2.map
  repeat' first
    | exact m_new _ _ _
    | refine post_bind fun _ => ?_

theorem m_push2 (m : Ed2Mt25519) (P : Edwards.Point) : Post (m.push P) (MOn m.e1) := by
  unfold Ed2Mt25519.push
  repeat' first
    | exact m_identity _
    | exact m_proy _ _
    | refine post_ite ?_ ?_
    | refine post_bind fun _ => ?_

theorem m_push4 (m : Ed4isoMt448) (P : Edwards.Point) : Post (m.push P) (MOn m.e1) := by
  unfold Ed4isoMt448.push
  repeat' first
    | exact m_identity _
    | exact m_proy _ _
    | refine post_ite ?_ ?_
    | refine post_bind fun _ => ?_

/-- C94 for the maps to Montgomery curves: Elligator 2 and the two rational maps, on any argument. -/
theorem _root_.Redox.Props.C94_montgomery_maps (e : Curve) (z u : FpElt) (r2 : Ed2Mt25519) (r4 : Ed4isoMt448) (P : Edwards.Point) :
    (∀ m S, Ell2.new e z = R.ok m → m.map u = R.ok S → S.e = e ∧ e.isOnCurve S = R.ok true) ∧
    (∀ S, r2.push P = R.ok S → S.e = r2.e1 ∧ r2.e1.isOnCurve S = R.ok true) ∧
    (∀ S, r4.push P = R.ok S → S.e = r4.e1 ∧ r4.e1.isOnCurve S = R.ok true) := by
  refine ⟨fun m S hm hS => ?_, m_push2 r2 P, m_push4 r4 P⟩
  have : m.e = e := by
    revert hm
    refine (show Post (Ell2.new e z) fun m => m.e = e from ?_) m
    unfold Ell2.new
    repeat' first
      | exact post_panic _
      | exact post_ok rfl
      | refine post_ite ?_ ?_
      | refine post_bind fun _ => ?_
  exact this ▸ m_ell2 m u S hS

end montgomery

section edwards
open Edwards

/-- `S` is a point object of the curve `e` and `e.is_on_curve(S)` answers `true`. -/
def EOn (e : Curve) (S : Point) : Prop := S.e = e ∧ e.isOnCurve S = R.ok true

theorem e_proy (e : Curve) (c : ProyCoordinates) : Post (e.newProyPoint c) (EOn e) := by
  intro S hS
  unfold Curve.newProyPoint at hS
  obtain ⟨b, hb, hS⟩ := R.bind_eq_ok.1 hS
  cases b
  · exact absurd hS (by simp [doIfEq_false])
  · cases hS; exact ⟨rfl, hb⟩

theorem e_new (e : Curve) (x y : FpElt) : Post (e.newPoint x y) (EOn e) := by
  refine post_bind fun t => post_bind fun o => ?_
  intro S hS
  obtain ⟨b, hb, hS⟩ := R.bind_eq_ok.1 hS
  cases b
  · exact absurd hS (by simp [doIfEq_false])
  · cases hS; exact ⟨rfl, hb⟩

theorem e_identity (e : Curve) : Post e.identity (EOn e) :=
  post_bind fun _ => post_bind fun _ => post_bind fun _ => post_bind fun _ => e_proy e _

theorem e_decode (e : Curve) (buf : List Byte) : Post (e.decode buf) (fun r => ∀ S, r = .ok S → EOn e S) := by
  unfold Curve.decode
  repeat' first
    | exact post_bind' fun S hS => post_ok fun S' h => by cases h; exact e_new e _ _ _ hS
    | exact post_ok fun S' h => by cases h
    | refine post_ite ?_ ?_
    | refine post_bind fun _ => ?_

theorem e_add (P Q : Point) : Post (P.add Q) (EOn P.e) := post_doIfEq (post_bind fun _ => e_proy _ _)

theorem e_neg (P : Point) : Post P.neg (EOn P.e) := post_bind fun _ => post_bind fun _ => e_proy _ _

theorem e_mulLoop (P : Point) (bits : List Bool) : ∀ q, EOn P.e q → Post (P.mulLoop bits q) (EOn P.e) := by
  induction bits with
  | nil => exact fun q hq => post_ok hq
  | cons k bits ih =>
    intro q hq
    refine post_bind' fun q1 h1 => ?_
    have hq1 : EOn P.e q1 := by
      have := e_add q q _ h1
      rwa [hq.1] at this
    cases k
    · exact ih _ hq1
    · refine post_bind' fun q2 h2 => ih _ ?_
      have := e_add q1 P q2 h2
      rwa [hq1.1] at this

/-- C94 on Edwards curves, see `C94_weierstrass`. -/
theorem _root_.Redox.Props.C94_edwards (e : Curve) (P Q : Point) (prof : Profile) :
    (∀ x y S, e.newPoint x y = R.ok S → S.e = e ∧ e.isOnCurve S = R.ok true) ∧
    (∀ S, e.identity = R.ok S → S.e = e ∧ e.isOnCurve S = R.ok true) ∧
    (∀ S, e.getGenerator = R.ok S → S.e = e ∧ e.isOnCurve S = R.ok true) ∧
    (∀ buf S, e.decode buf = R.ok (.ok S) → S.e = e ∧ e.isOnCurve S = R.ok true) ∧
    (∀ S, P.neg = R.ok S → S.e = P.e ∧ P.e.isOnCurve S = R.ok true) ∧
    (∀ S, P.add Q = R.ok S → S.e = P.e ∧ P.e.isOnCurve S = R.ok true) ∧
    (∀ S, P.sub Q = R.ok S → S.e = P.e ∧ P.e.isOnCurve S = R.ok true) ∧
    (∀ k S, P.mul prof k = R.ok S → S.e = P.e ∧ P.e.isOnCurve S = R.ok true) := by
  refine ⟨fun x y => e_new e x y, e_identity e, post_bind fun _ => post_bind fun _ => e_proy e _,
    fun buf S h => e_decode e buf _ h S rfl, e_neg P, e_add P Q, post_bind fun _ => e_add P _,
    fun k => post_doIfEq (post_bind' fun q hq => post_bind fun b => e_mulLoop P b q (e_identity _ q hq))⟩

theorem e_pull2 (m : Ed2Mt25519) (P : Montgomery.Point) : Post (m.pull P) (EOn m.e0) := by
  unfold Ed2Mt25519.pull
  repeat' first
    | exact e_identity _
    | exact e_proy _ _
    | refine post_ite ?_ ?_
    | refine post_bind fun _ => ?_

theorem e_pull4 (m : Ed4isoMt448) (P : Montgomery.Point) : Post (m.pull P) (EOn m.e0) := by
  unfold Ed4isoMt448.pull
  repeat' first
    | exact e_identity _
    | exact e_proy _ _
    | refine post_ite ?_ ?_
    | refine post_bind fun _ => ?_

theorem e_ell2 (e : Curve) (z u : FpElt) (r : RationalMap) (e0 : Curve) (hd : r.domain = R.ok e0)
    (hp : ∀ P, Post (r.pull P) (EOn e0)) (m : Ell2) (S : Point) (hm : Ell2.new e z (some r) = R.ok m) (hS : m.map u = R.ok S) :
    EOn e S := by
  have h : m.ratmap = r ∧ e0 = e := by
    revert hm
    refine (show Post (Ell2.new e z (some r)) fun m => m.ratmap = r ∧ e0 = e from ?_) m
    unfold Ell2.new
    refine post_bind' fun d hd' => ?_
    rw [hd] at hd'
    cases hd'
    by_cases he : e0 = e
    · rw [if_neg (by simpa using he)]
      exact post_bind fun _ => post_bind fun _ => post_ok ⟨rfl, he⟩
    · rw [if_pos he]
      exact post_panic _
  unfold Ell2.map at hS
  obtain ⟨T, -, hS⟩ := R.bind_eq_ok.1 hS
  rw [h.1] at hS
  exact h.2 ▸ hp T S hS

/-- C94 for the maps to Edwards curves: Elligator 2 through either rational map, and the inverse rational maps, on any argument. -/
theorem _root_.Redox.Props.C94_edwards_maps (e : Curve) (z u : FpElt) (r2 : Ed2Mt25519) (r4 : Ed4isoMt448) (P : Montgomery.Point) :
    (∀ m S, Ell2.new e z (some r2.toRationalMap) = R.ok m → m.map u = R.ok S → S.e = e ∧ e.isOnCurve S = R.ok true) ∧
    (∀ m S, Ell2.new e z (some r4.toRationalMap) = R.ok m → m.map u = R.ok S → S.e = e ∧ e.isOnCurve S = R.ok true) ∧
    (∀ S, r2.pull P = R.ok S → S.e = r2.e0 ∧ r2.e0.isOnCurve S = R.ok true) ∧
    (∀ S, r4.pull P = R.ok S → S.e = r4.e0 ∧ r4.e0.isOnCurve S = R.ok true) :=
  ⟨e_ell2 e z u r2.toRationalMap r2.e0 rfl (e_pull2 r2), e_ell2 e z u r4.toRationalMap r4.e0 rfl (e_pull4 r4), e_pull2 r2 P, e_pull4 r4 P⟩

end edwards

section check
variable (n : ℕ) [NeZero n]

/-- What the check of C94 means on a short Weierstrass curve, for every modulus `n > 0`, prime or not: `is_on_curve` answers whether the
coordinates satisfy `Y²Z = X³ + aXZ² + bZ³` modulo `n`. -/
theorem _root_.Redox.Props.C94_check_weierstrass (e : Weierstrass.Curve) (P : Weierstrass.Point) (ha : Spec.Canon n e.a)
    (hb : Spec.Canon n e.b) (hx : Spec.Canon n P.c.x) (hy : Spec.Canon n P.c.y) (hz : Spec.Canon n P.c.z) :
    ∃ ans, e.isOnCurve P = R.ok ans ∧
      (ans = true ↔ Spec.val n P.c.y ^ 2 * Spec.val n P.c.z =
        Spec.val n P.c.x ^ 3 + Spec.val n e.a * Spec.val n P.c.x * Spec.val n P.c.z ^ 2 + Spec.val n e.b * Spec.val n P.c.z ^ 3) := by
  obtain ⟨f, a, b, r, gx, gy, h⟩ := e
  obtain ⟨pe, x, y, z⟩ := P
  dsimp only at ha hb hx hy hz ⊢
  obtain ⟨a, rfl⟩ := canon_iff.1 ha
  obtain ⟨b, rfl⟩ := canon_iff.1 hb
  obtain ⟨x, rfl⟩ := canon_iff.1 hx
  obtain ⟨y, rfl⟩ := canon_iff.1 hy
  obtain ⟨z, rfl⟩ := canon_iff.1 hz
  simp only [Weierstrass.Curve.isOnCurve, R.fadd_ok, R.fsub_ok, R.fmul_ok, R.fsqr_ok, add_el, sub_el, mul_el, sqr_el, R.ok_bind, R.pure_eq,
    isZero_el, val_el]
  refine ⟨_, rfl, ?_⟩
  rw [decide_eq_true_iff]
  constructor <;> intro h <;> linear_combination -h

/-- What the check of C94 means on a Montgomery curve: `bY²Z = X(X² + aXZ + Z²)` modulo `n`. -/
theorem _root_.Redox.Props.C94_check_montgomery (e : Montgomery.Curve) (P : Montgomery.Point) (ha : Spec.Canon n e.a)
    (hb : Spec.Canon n e.b) (hx : Spec.Canon n P.c.x) (hy : Spec.Canon n P.c.y) (hz : Spec.Canon n P.c.z) :
    ∃ ans, e.isOnCurve P = R.ok ans ∧
      (ans = true ↔ Spec.val n e.b * Spec.val n P.c.y ^ 2 * Spec.val n P.c.z =
        Spec.val n P.c.x * (Spec.val n P.c.x ^ 2 + Spec.val n e.a * Spec.val n P.c.x * Spec.val n P.c.z + Spec.val n P.c.z ^ 2)) := by
  obtain ⟨f, a, b, s, r, gx, gy, h⟩ := e
  obtain ⟨pe, x, y, z⟩ := P
  dsimp only at ha hb hx hy hz ⊢
  obtain ⟨a, rfl⟩ := canon_iff.1 ha
  obtain ⟨b, rfl⟩ := canon_iff.1 hb
  obtain ⟨x, rfl⟩ := canon_iff.1 hx
  obtain ⟨y, rfl⟩ := canon_iff.1 hy
  obtain ⟨z, rfl⟩ := canon_iff.1 hz
  simp only [Montgomery.Curve.isOnCurve, R.fadd_ok, R.fsub_ok, R.fmul_ok, R.fsqr_ok, add_el, sub_el, mul_el, sqr_el, R.ok_bind, R.pure_eq,
    isZero_el, val_el]
  refine ⟨_, rfl, ?_⟩
  rw [decide_eq_true_iff]
  constructor <;> intro h <;> linear_combination h

/-- What the check of C94 means on an Edwards curve: `aX² + Y² = dT² + Z²` and `XY = TZ` modulo `n`. -/
theorem _root_.Redox.Props.C94_check_edwards (e : Edwards.Curve) (P : Edwards.Point) (ha : Spec.Canon n e.a)
    (hd : Spec.Canon n e.d) (hx : Spec.Canon n P.c.x) (hy : Spec.Canon n P.c.y) (ht : Spec.Canon n P.c.t) (hz : Spec.Canon n P.c.z) :
    ∃ ans, e.isOnCurve P = R.ok ans ∧
      (ans = true ↔ Spec.val n e.a * Spec.val n P.c.x ^ 2 + Spec.val n P.c.y ^ 2 =
          Spec.val n e.d * Spec.val n P.c.t ^ 2 + Spec.val n P.c.z ^ 2 ∧
        Spec.val n P.c.x * Spec.val n P.c.y = Spec.val n P.c.t * Spec.val n P.c.z) := by
  obtain ⟨f, a, d, r, gx, gy, h⟩ := e
  obtain ⟨pe, x, y, t, z⟩ := P
  dsimp only at ha hd hx hy ht hz ⊢
  obtain ⟨a, rfl⟩ := canon_iff.1 ha
  obtain ⟨d, rfl⟩ := canon_iff.1 hd
  obtain ⟨x, rfl⟩ := canon_iff.1 hx
  obtain ⟨y, rfl⟩ := canon_iff.1 hy
  obtain ⟨t, rfl⟩ := canon_iff.1 ht
  obtain ⟨z, rfl⟩ := canon_iff.1 hz
  simp only [Edwards.Curve.isOnCurve, R.fadd_ok, R.fsub_ok, R.fmul_ok, R.fsqr_ok, add_el, sub_el, mul_el, sqr_el, R.ok_bind, R.pure_eq,
    isZero_el, val_el]
  refine ⟨_, rfl, ?_⟩
  rw [Bool.and_eq_true, decide_eq_true_iff, decide_eq_true_iff]
  refine and_congr ⟨fun h => ?_, fun h => ?_⟩ ⟨fun h => ?_, fun h => ?_⟩ <;> linear_combination h

end check

/-- The operations return points: on `y² = x³ + x + 1` modulo the composite number 35, an addition and a multiplication by 3. -/
def w35 : Weierstrass.Curve := ⟨⟨35⟩, ⟨1, ⟨35⟩⟩, ⟨1, ⟨35⟩⟩, 5, ⟨0, ⟨35⟩⟩, ⟨1, ⟨35⟩⟩, 1⟩

example : ∃ G S T, w35.getGenerator = R.ok G ∧ G.add G = R.ok S ∧ G.mul .debug ⟨3, 5⟩ = R.ok T ∧ w35.isOnCurve T = R.ok true :=
  ⟨⟨w35, ⟨⟨0, ⟨35⟩⟩, ⟨1, ⟨35⟩⟩, ⟨1, ⟨35⟩⟩⟩⟩, ⟨w35, _⟩, ⟨w35, _⟩, by decide +kernel, by rfl, by rfl, by decide +kernel⟩

/-- A point off the curve, such as `normalize` makes of the identity, is refused as soon as the library computes with it. -/
example : ∃ N, (w35.identity >>= fun O => O.normalize) = R.ok N ∧ w35.isOnCurve N = R.ok false ∧ N.neg = R.panic .notValidPoint :=
  ⟨⟨w35, ⟨⟨0, ⟨35⟩⟩, ⟨0, ⟨35⟩⟩, ⟨1, ⟨35⟩⟩⟩⟩, by decide +kernel, by decide +kernel, by decide +kernel⟩

/-- The maps return points, here simplified SWU on `y² = x³ + x + 4` and Elligator 2 on `y² = x³ + 3x² + x` over GF(7). -/
example : (do (← Weierstrass.SSWU.new ⟨⟨7⟩, ⟨1, ⟨7⟩⟩, ⟨4, ⟨7⟩⟩, 10, ⟨0, ⟨7⟩⟩, ⟨2, ⟨7⟩⟩, 1⟩ ⟨3, ⟨7⟩⟩).map ⟨2, ⟨7⟩⟩).isOk ∧
    (do (← Montgomery.Ell2.new ⟨⟨7⟩, ⟨3, ⟨7⟩⟩, ⟨1, ⟨7⟩⟩, ⟨1, ⟨7⟩⟩, 12, ⟨2, ⟨7⟩⟩, ⟨1, ⟨7⟩⟩, 1⟩ ⟨3, ⟨7⟩⟩).map ⟨2, ⟨7⟩⟩).isOk := by
  constructor <;> decide +kernel

end Redox.Props.Val
