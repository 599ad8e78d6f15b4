import Verif.Spec.Client
import Verif.Props.Received
import Verif.Props.Commit

/-!
# C122: a client cannot tell the library from the group
-/

set_option linter.unusedSectionVars false

namespace Redox.Props.ClientProps

open Spec Redox.Inst Redox.Props.Inst Redox.Props.Commit

/-- Two outcomes are related: both are values, related by `Rel`, or both are the same panic. -/
def RelR {P G : Type} (Rel : P → G → Prop) (x : R P) (y : R G) : Prop :=
  (∃ a b, x = R.ok a ∧ y = R.ok b ∧ Rel a b) ∨ ∃ f, x = R.panic f ∧ y = R.panic f

/-- Every operation takes related arguments to related results and equal observations. -/
structure Refines {P G : Type} (Rel : P → G → Prop) (A : PointApi P) (B : PointApi G) : Prop where
  identity : RelR Rel A.identity B.identity
  generator : RelR Rel A.generator B.generator
  point : ∀ x y, RelR Rel (A.point x y) (B.point x y)
  add : ∀ a b x y, Rel a x → Rel b y → RelR Rel (A.add a b) (B.add x y)
  sub : ∀ a b x y, Rel a x → Rel b y → RelR Rel (A.sub a b) (B.sub x y)
  neg : ∀ a x, Rel a x → RelR Rel (A.neg a) (B.neg x)
  mul : ∀ a x n, Rel a x → RelR Rel (A.mul a n) (B.mul x n)
  eq : ∀ a b x y, Rel a x → Rel b y → A.eq a b = B.eq x y
  isZero : ∀ a x, Rel a x → A.isZero a = B.isZero x
  encode : ∀ a x c, Rel a x → A.encode a c = B.encode x c
  decode : ∀ bs, (∃ a b, A.decode bs = R.ok (.ok a) ∧ B.decode bs = R.ok (.ok b) ∧ Rel a b) ∨
    (∃ err, A.decode bs = R.ok (.error err) ∧ B.decode bs = R.ok (.error err)) ∨ ∃ f, A.decode bs = R.panic f ∧ B.decode bs = R.panic f

theorem upd_rel {P G : Type} {Rel : P → G → Prop} {s : ℕ → P} {s' : ℕ → G} (h : ∀ i, Rel (s i) (s' i)) (i : ℕ) {a : P} {b : G} (hab : Rel a b) :
    ∀ j, Rel (Function.update s i a j) (Function.update s' i b j) := by
  intro j
  by_cases hj : j = i
  · subst hj
    simpa using hab
  · simpa [hj] using h j

theorem bind_rel {P G α : Type} {Rel : P → G → Prop} {x : R P} {y : R G} {f : P → R α} {f' : G → R α} (h : RelR Rel x y)
    (hf : ∀ a b, Rel a b → f a = f' b) : (x >>= f) = (y >>= f') := by
  rcases h with ⟨a, b, rfl, rfl, hab⟩ | ⟨e, rfl, rfl⟩
  · exact hf a b hab
  · rfl

/-- A client of an implementation that refines another one has the same outcome with both. -/
theorem run_eq {P G α : Type} {Rel : P → G → Prop} {A : PointApi P} {B : PointApi G} (H : Refines Rel A B) (cl : Client α) (s : ℕ → P) (s' : ℕ → G)
    (h : ∀ i, Rel (s i) (s' i)) : cl.run A s = cl.run B s' := by
  induction cl generalizing s s' with
  | done x => rfl
  | identity i k ih => exact bind_rel H.identity fun a b hab => ih _ _ (upd_rel h i hab)
  | generator i k ih => exact bind_rel H.generator fun a b hab => ih _ _ (upd_rel h i hab)
  | point i x y k ih => exact bind_rel (H.point x y) fun a b hab => ih _ _ (upd_rel h i hab)
  | add i a b k ih => exact bind_rel (H.add _ _ _ _ (h a) (h b)) fun a b hab => ih _ _ (upd_rel h i hab)
  | sub i a b k ih => exact bind_rel (H.sub _ _ _ _ (h a) (h b)) fun a b hab => ih _ _ (upd_rel h i hab)
  | neg i a k ih => exact bind_rel (H.neg _ _ (h a)) fun a b hab => ih _ _ (upd_rel h i hab)
  | mul i a n k ih => exact bind_rel (H.mul _ _ n (h a)) fun a b hab => ih _ _ (upd_rel h i hab)
  | eq a b k ih =>
    simp only [Client.run, H.eq _ _ _ _ (h a) (h b)]
    exact congrArg _ (funext fun v => ih v s s' h)
  | isZero a k ih =>
    simp only [Client.run, H.isZero _ _ (h a)]
    exact ih _ s s' h
  | encode a c k ih =>
    simp only [Client.run, H.encode _ _ c (h a)]
    exact congrArg _ (funext fun v => ih v s s' h)
  | decode i bs k ih =>
    rcases H.decode bs with ⟨a, b, ha, hb, hab⟩ | ⟨err, ha, hb⟩ | ⟨f, ha, hb⟩
    · simp only [Client.run, ha, hb, R.ok_bind]
      exact ih none _ _ (upd_rel h i hab)
    · simp only [Client.run, ha, hb, R.ok_bind]
      exact ih (some err) _ _ h
    · simp only [Client.run, ha, hb, R.panic_bind]

/-- Decoding, with the decoded point replaced by what it stands for. -/
noncomputable def decOf {P G : Type} [Zero G] (Rel : P → G → Prop) (dec : List Byte → R (Except DecodeError P)) (bs : List Byte) :
    R (Except DecodeError G) := by
  classical
  exact match dec bs with
    | .panic f => .panic f
    | .ok (.error err) => .ok (.error err)
    | .ok (.ok Q) => .ok (.ok (if h : ∃ A, Rel Q A then h.choose else 0))

theorem decOf_spec {P G : Type} [Zero G] (Rel : P → G → Prop) (dec : List Byte → R (Except DecodeError P)) (bs : List Byte)
    (h : ∀ Q, dec bs = R.ok (.ok Q) → ∃ A, Rel Q A) :
    (∃ a b, dec bs = R.ok (.ok a) ∧ decOf Rel dec bs = R.ok (.ok b) ∧ Rel a b) ∨
    (∃ err, dec bs = R.ok (.error err) ∧ decOf Rel dec bs = R.ok (.error err)) ∨ ∃ f, dec bs = R.panic f ∧ decOf Rel dec bs = R.panic f := by
  classical
  rcases hd : dec bs with (err | Q) | f
  · exact .inr (.inl ⟨err, rfl, by simp [decOf, hd]⟩)
  · have hA := h Q hd
    exact .inl ⟨Q, hA.choose, rfl, by simp [decOf, hd, hA], hA.choose_spec⟩
  · exact .inr (.inr ⟨f, rfl, by simp [decOf, hd]⟩)

/-- The encoding of what a point stands for. -/
noncomputable def encOf {P G : Type} (Rel : P → G → Prop) (enc : P → Bool → R (List Byte)) (A : G) (c : Bool) : List Byte := by
  classical
  exact if h : ∃ bs Q, Rel Q A ∧ enc Q c = R.ok bs then h.choose else []

theorem encOf_spec {P G : Type} (Rel : P → G → Prop) (enc : P → Bool → R (List Byte)) (same : ∀ a b A c, Rel a A → Rel b A → enc a c = enc b c)
    {Q : P} {A : G} (hQ : Rel Q A) {c : Bool} {bs : List Byte} (h : enc Q c = R.ok bs) : encOf Rel enc A c = bs := by
  classical
  have hex : ∃ bs Q, Rel Q A ∧ enc Q c = R.ok bs := ⟨bs, Q, hQ, h⟩
  rw [encOf, dif_pos hex]
  obtain ⟨Q', hQ', h'⟩ := hex.choose_spec
  rw [same Q' Q A c hQ' hQ, h, R.ok.injEq] at h'
  exact h'.symm

section
variable (p : ℕ) [Fact p.Prime]

theorem weierstrass_point (e : Weierstrass.Curve) (A : (wGroup p e).Point) : ∃ P, WDenotes p e P A := by
  rcases A with _ | ⟨u, v, hn⟩
  · exact ⟨WLink.pt e 0 1 0, WLink.denotes_iff.2 ⟨0, 1, 0, rfl, by simp [RCB.Rep]⟩⟩
  · exact ⟨WLink.pt e u v 1, WLink.denotes_iff.2 ⟨u, v, 1, rfl, by simp [RCB.Rep]⟩⟩

theorem weierstrass_new (e : Weierstrass.Curve) (h : WValid p e) (x y : ℤ) :
    RelR (WDenotes p e) (do e.newPoint (← e.f.elt x) (← e.f.elt y)) ((wPoint p e x y).elim (R.panic .notValidPoint) R.ok) := by
  have hn := C22_new_point p e h.curve (el (x : ZMod p)) (el (y : ZMod p)) (canon_el _) (canon_el _)
  simp only [h.curve.field, elt_eq, R.ok_bind, wPoint]
  by_cases hon : OnW p e (el (x : ZMod p)) (el (y : ZMod p))
  · obtain ⟨P, hP, -, -, -, hh, hd⟩ := hn.1 hon
    simp only [val_el] at hh hd
    rw [dif_pos hh]
    exact .inl ⟨P, _, hP, rfl, hd⟩
  · rw [dif_neg]
    · exact .inr ⟨_, hn.2 hon, rfl⟩
    · intro hh
      apply hon
      have := ((wGroup p e).equation_iff _ _).1 hh.1
      simp only [OnW, val_el]
      linear_combination this

theorem weierstrass_encode (e : Weierstrass.Curve) (h : WValid p e) {P : Weierstrass.Point} {A : (wGroup p e).Point} (hP : WDenotes p e P A) (c : Bool) : ∃ bs, P.encode c = R.ok bs := by
  obtain ⟨x, y, z, rfl, -⟩ := WLink.denotes_iff.1 hP
  exact ⟨_, encode_pt h.curve x y z c⟩

/-- C122, Weierstrass. There are an encoding and a decoding of the elements of the group other than the identity, inverse to each other, such that every client, whatever it
computes and observes, has with the library the outcome it has with the group; whatever representatives of the points it starts with. -/
theorem _root_.Redox.Props.C122_weierstrass (e : Weierstrass.Curve) (h : WValid p e) (hs : p % 4 = 3 ∨ p % 8 = 5) (G : Weierstrass.Point) (g : (wGroup p e).Point)
    (hG : e.getGenerator = R.ok G) (hg : WDenotes p e G g) :
    ∃ (enc : (wGroup p e).Point → Bool → List Byte) (dec : List Byte → R (Except DecodeError ((wGroup p e).Point))),
      (∀ A c, A ≠ 0 → dec (enc A c) = R.ok (.ok A)) ∧
      ∀ (prof : Profile) (α : Type) (cl : Client α) (s : ℕ → Weierstrass.Point) (ρ : ℕ → (wGroup p e).Point), (∀ i, WDenotes p e (s i) (ρ i)) →
        cl.run (wApi prof e) s = cl.run (groupApi prof e.getOrder g (wPoint p e) (fun A => A = 0) enc dec) ρ := by
  have law := fun P Q A B hP hQ => C23_group_law p e h.curve h.complete P Q A B hP hQ
  have ret : ∀ {x : R Weierstrass.Point} {A : (wGroup p e).Point}, WReturns p e x A → RelR (WDenotes p e) x (R.ok A) :=
    fun ⟨S, hS, dS⟩ => .inl ⟨S, _, hS, rfl, dS⟩
  have hd : ∀ bs Q, e.decode bs = R.ok (.ok Q) → ∃ A, WDenotes p e Q A := fun bs Q hQ => by
    obtain ⟨x, y, hn, c, -, hd⟩ := (C105_weierstrass_decode p e h.curve h.complete hs bs).1 Q hQ
    exact ⟨_, hd⟩
  have same : ∀ (a b : Weierstrass.Point) (A : (wGroup p e).Point) (c : Bool), WDenotes p e a A → WDenotes p e b A → a.encode c = b.encode c :=
    fun a b A c ha hb => (C30_encode p e h.curve c a b A A ha hb).1 rfl
  refine ⟨encOf (WDenotes p e) (fun P c => P.encode c), decOf (WDenotes p e) e.decode, ?_, ?_⟩
  · intro A c hA
    obtain ⟨P, dP⟩ := weierstrass_point p e A
    obtain ⟨bs, Q, hb, -, hdc, dQ, -⟩ := C28_roundtrip_partial p e h.curve hs P A dP hA c
    rw [encOf_spec (WDenotes p e) (fun P c => P.encode c) same dP hb]
    rcases decOf_spec (WDenotes p e) e.decode bs (hd bs) with ⟨Q', B, h1, h2, dB⟩ | ⟨err, h1, -⟩ | ⟨f, h1, -⟩
    · rw [hdc, R.ok.injEq, Except.ok.injEq] at h1
      subst h1
      have := w_eq p e dQ dB
      have h3 := w_eq p e dQ dQ
      rw [this, R.ok.injEq, decide_eq_decide] at h3
      rw [h2, h3.2 rfl]
    · rw [hdc] at h1; cases h1
    · rw [hdc] at h1; cases h1
  · intro prof α cl s ρ hsρ
    refine run_eq (Rel := WDenotes p e) ?_ cl s ρ hsρ
    refine
      { identity := ?_, generator := .inl ⟨G, g, hG, rfl, hg⟩, point := weierstrass_new p e h, add := fun P Q A B hP hQ => ret (law P Q A B hP hQ).1,
        sub := fun P Q A B hP hQ => ret (law P Q A B hP hQ).2.1, neg := fun P A hP => ret (law P P A A hP hP).2.2, mul := ?_, eq := ?_, isZero := ?_,
        encode := ?_, decode := fun bs => decOf_spec (WDenotes p e) e.decode bs (hd bs) }
    · obtain ⟨I, hI, hId, -⟩ := C22_identity p e h.curve; exact ret ⟨I, hI, hId⟩
    · intro P A n hP
      have hr := h.order_prime.one_le
      have hn : e.newScalar n = R.ok ⟨n % e.r, e.r⟩ := scalar_new_eq e.r hr n
      have hc : CanonScalar e.r ⟨n % e.r, e.r⟩ := ⟨rfl, Int.emod_nonneg _ (Int.natCast_ne_zero.2 h.order_prime.ne_zero), Int.emod_lt_of_pos _ (by exact_mod_cast hr)⟩
      simp only [wApi, groupApi, hn, R.ok_bind]
      split
      · rename_i h0
        obtain ⟨rfl, h0⟩ := h0
        have h0 : n % e.r = 0 := Int.emod_eq_zero_of_dvd h0
        rw [h0]
        exact .inr ⟨_, C25_refuted_zero p e h.curve P hP.1, rfl⟩
      · rename_i h0
        refine ret (C25_mul_partial p e h.curve h.complete h.order_bits prof P A hP _ hc ?_)
        rcases prof with _ | _
        · exact .inl fun hz => h0 ⟨rfl, Int.dvd_of_emod_eq_zero hz⟩
        · exact .inr rfl
    · intro P Q A B hP hQ
      refine (w_eq p e hP hQ).trans (congrArg R.ok ?_)
      exact decide_eq_decide.2 Iff.rfl
    · intro P A hP
      refine (C27_is_zero p e P A hP).trans ?_
      exact decide_eq_decide.2 Iff.rfl
    · intro P A c hP
      obtain ⟨bs, hb⟩ := weierstrass_encode p e h hP c
      exact hb.trans (congrArg R.ok (encOf_spec (WDenotes p e) (fun P c => P.encode c) same hP hb).symm)

/-- C122, Weierstrass: no client can tell representatives apart. It has the same outcome, panics included, whatever representatives of the same points it starts with. -/
theorem _root_.Redox.Props.C122_weierstrass_same (e : Weierstrass.Curve) (h : WValid p e) (hs : p % 4 = 3 ∨ p % 8 = 5) (prof : Profile) {α : Type} (cl : Client α)
    (s s' : ℕ → Weierstrass.Point) (ρ : ℕ → (wGroup p e).Point) (hρ : ∀ i, WDenotes p e (s i) (ρ i)) (hρ' : ∀ i, WDenotes p e (s' i) (ρ i)) :
    cl.run (wApi prof e) s = cl.run (wApi prof e) s' := by
  obtain ⟨G, g, hG, hg, -⟩ := h.generator
  obtain ⟨enc, dec, -, hr⟩ := C122_weierstrass p e h hs G g hG hg
  rw [hr prof α cl s ρ hρ, hr prof α cl s' ρ hρ']

theorem montgomery_point (e : Montgomery.Curve) (A : (mGroup p e).Point) : ∃ P, MDenotes p e P A := by
  rcases A with _ | ⟨u, v, hn⟩
  · exact ⟨MLink.pt e 0 1 0, MLink.denotes_iff.2 ⟨0, 1, 0, rfl, by simp [Redox.Mont.Rep]⟩⟩
  · exact ⟨MLink.pt e u v 1, MLink.denotes_iff.2 ⟨u, v, 1, rfl, by simp [Redox.Mont.Rep]⟩⟩

theorem montgomery_new (e : Montgomery.Curve) (h : MValid p e) (x y : ℤ) :
    RelR (MDenotes p e) (do e.newPoint (← e.f.elt x) (← e.f.elt y)) ((mPoint p e x y).elim (R.panic .notValidPoint) R.ok) := by
  have hn := MLink.newPoint_pt h.curve (x : ZMod p) (y : ZMod p)
  simp only [h.curve.field, elt_eq, R.ok_bind, mPoint]
  by_cases hon : (mGroup p e).Nonsingular x y
  · rw [dif_pos hon]
    have he := ((mGroup p e).equation_iff _ _).1 hon.1
    simp only at he
    exact .inl ⟨_, _, by rw [hn, if_pos (by rw [h.b_one]; linear_combination he)], rfl,
      MLink.denotes_iff.2 ⟨_, _, _, rfl, one_ne_zero, by ring, by ring⟩⟩
  · rw [dif_neg hon, hn, if_neg]
    · exact .inr ⟨_, rfl, rfl⟩
    · intro he
      rw [h.b_one] at he
      obtain ⟨A, hA⟩ := MLink.exists_rep (x := (x : ZMod p)) (y := (y : ZMod p)) (z := 1) h.curve.odd
        (MLink.ea_ne h.curve) (by linear_combination he) (Or.inr one_ne_zero)
      rcases A with _ | ⟨u, v, huv⟩
      · exact one_ne_zero hA.2.2
      · obtain ⟨-, hu, hv⟩ := hA
        rw [mul_one] at hu hv
        rw [hu, hv] at hon
        exact hon huv

theorem montgomery_encode (e : Montgomery.Curve) (h : MValid p e) {P : Montgomery.Point} {A : (mGroup p e).Point} (hP : MDenotes p e P A) (c : Bool) : ∃ bs, P.encode c = R.ok bs := by
  obtain ⟨x, y, z, rfl, -⟩ := MLink.denotes_iff.1 hP
  exact ⟨_, Mo.encode_pt h.curve x y z c⟩

/-- C122, Montgomery. There are an encoding and a decoding of the elements of the group other than the identity, inverse to each other, such that every client, whatever it
computes and observes, has with the library the outcome it has with the group; whatever representatives of the points it starts with. -/
theorem _root_.Redox.Props.C122_montgomery (e : Montgomery.Curve) (h : MValid p e) (hs : p % 4 = 3 ∨ p % 8 = 5) (G : Montgomery.Point) (g : (mGroup p e).Point)
    (hG : e.getGenerator = R.ok G) (hg : MDenotes p e G g) :
    ∃ (enc : (mGroup p e).Point → Bool → List Byte) (dec : List Byte → R (Except DecodeError ((mGroup p e).Point))),
      (∀ A c, A ≠ 0 → dec (enc A c) = R.ok (.ok A)) ∧
      ∀ (prof : Profile) (α : Type) (cl : Client α) (s : ℕ → Montgomery.Point) (ρ : ℕ → (mGroup p e).Point), (∀ i, MDenotes p e (s i) (ρ i)) →
        cl.run (mApi prof e) s = cl.run (groupApi prof e.getOrder g (mPoint p e) (fun A => A = 0) enc dec) ρ := by
  have law := fun P Q A B hP hQ => C32_group_law_partial p e h.curve h.b_one h.complete P Q A B hP hQ
  have ret : ∀ {x : R Montgomery.Point} {A : (mGroup p e).Point}, MReturns p e x A → RelR (MDenotes p e) x (R.ok A) :=
    fun ⟨S, hS, dS⟩ => .inl ⟨S, _, hS, rfl, dS⟩
  have hd : ∀ bs Q, e.decode bs = R.ok (.ok Q) → ∃ A, MDenotes p e Q A := fun bs Q hQ => by
    obtain ⟨x, y, hn, -, hd⟩ := (C105_montgomery_decode p e h.curve h.b_one hs bs).1 Q hQ
    exact ⟨_, hd⟩
  have same : ∀ (a b : Montgomery.Point) (A : (mGroup p e).Point) (c : Bool), MDenotes p e a A → MDenotes p e b A → a.encode c = b.encode c :=
    fun a b A c ha hb => (C34_canonical_partial p e h.curve c a b A A ha hb).1 rfl
  refine ⟨encOf (MDenotes p e) (fun P c => P.encode c), decOf (MDenotes p e) e.decode, ?_, ?_⟩
  · intro A c hA
    obtain ⟨P, dP⟩ := montgomery_point p e A
    obtain ⟨bs, Q, hb, -, hdc, dQ, -⟩ := C34_roundtrip_partial p e h.curve h.b_one hs P A dP hA c
    rw [encOf_spec (MDenotes p e) (fun P c => P.encode c) same dP hb]
    rcases decOf_spec (MDenotes p e) e.decode bs (hd bs) with ⟨Q', B, h1, h2, dB⟩ | ⟨err, h1, -⟩ | ⟨f, h1, -⟩
    · rw [hdc, R.ok.injEq, Except.ok.injEq] at h1
      subst h1
      have := m_eq p e dQ dB
      have h3 := m_eq p e dQ dQ
      rw [this, R.ok.injEq, decide_eq_decide] at h3
      rw [h2, h3.2 rfl]
    · rw [hdc] at h1; cases h1
    · rw [hdc] at h1; cases h1
  · intro prof α cl s ρ hsρ
    refine run_eq (Rel := MDenotes p e) ?_ cl s ρ hsρ
    refine
      { identity := ?_, generator := .inl ⟨G, g, hG, rfl, hg⟩, point := montgomery_new p e h, add := fun P Q A B hP hQ => ret (law P Q A B hP hQ).1,
        sub := fun P Q A B hP hQ => ret (law P Q A B hP hQ).2.1, neg := fun P A hP => ret (law P P A A hP hP).2.2, mul := ?_, eq := ?_, isZero := ?_,
        encode := ?_, decode := fun bs => decOf_spec (MDenotes p e) e.decode bs (hd bs) }
    · exact ret (Mo.identity_denotes h.curve)
    · intro P A n hP
      have hr := h.order_prime.one_le
      have hn : e.newScalar n = R.ok ⟨n % e.r, e.r⟩ := scalar_new_eq e.r hr n
      have hc : CanonScalar e.r ⟨n % e.r, e.r⟩ := ⟨rfl, Int.emod_nonneg _ (Int.natCast_ne_zero.2 h.order_prime.ne_zero), Int.emod_lt_of_pos _ (by exact_mod_cast hr)⟩
      simp only [mApi, groupApi, hn, R.ok_bind]
      split
      · rename_i h0
        obtain ⟨rfl, h0⟩ := h0
        have h0 : n % e.r = 0 := Int.emod_eq_zero_of_dvd h0
        rw [h0]
        exact .inr ⟨_, C33_refuted_zero p e h.curve P hP.1, rfl⟩
      · rename_i h0
        refine ret (C33_mul_partial p e h.curve h.b_one h.complete h.order_bits prof P A hP _ hc ?_)
        rcases prof with _ | _
        · exact .inl fun hz => h0 ⟨rfl, Int.dvd_of_emod_eq_zero hz⟩
        · exact .inr rfl
    · intro P Q A B hP hQ
      refine (m_eq p e hP hQ).trans (congrArg R.ok ?_)
      exact decide_eq_decide.2 Iff.rfl
    · intro P A hP
      refine (C32_eq p e P P A A hP hP).2.trans ?_
      exact decide_eq_decide.2 Iff.rfl
    · intro P A c hP
      obtain ⟨bs, hb⟩ := montgomery_encode p e h hP c
      exact hb.trans (congrArg R.ok (encOf_spec (MDenotes p e) (fun P c => P.encode c) same hP hb).symm)

/-- C122, Montgomery: no client can tell representatives apart. It has the same outcome, panics included, whatever representatives of the same points it starts with. -/
theorem _root_.Redox.Props.C122_montgomery_same (e : Montgomery.Curve) (h : MValid p e) (hs : p % 4 = 3 ∨ p % 8 = 5) (prof : Profile) {α : Type} (cl : Client α)
    (s s' : ℕ → Montgomery.Point) (ρ : ℕ → (mGroup p e).Point) (hρ : ∀ i, MDenotes p e (s i) (ρ i)) (hρ' : ∀ i, MDenotes p e (s' i) (ρ i)) :
    cl.run (mApi prof e) s = cl.run (mApi prof e) s' := by
  obtain ⟨G, g, hG, hg, -⟩ := h.generator
  obtain ⟨enc, dec, -, hr⟩ := C122_montgomery p e h hs G g hG hg
  rw [hr prof α cl s ρ hρ, hr prof α cl s' ρ hρ']

theorem edwards_point (e : Edwards.Curve) (A : eGroup p e) : ∃ P, EDenotes p e P A := by
  exact ⟨ELink.pt e A.x A.y (A.x * A.y) 1, ELink.denotes_iff.2 ⟨_, _, _, _, rfl, by simp [ELink.ERep]⟩⟩

theorem edwards_new (e : Edwards.Curve) (h : EValid p e) (x y : ℤ) :
    RelR (EDenotes p e) (do e.newPoint (← e.f.elt x) (← e.f.elt y)) ((ePoint p e x y).elim (R.panic .notValidPoint) R.ok) := by
  have hn := ELink.newPoint_pt h.curve.params (x : ZMod p) (y : ZMod p)
  simp only [h.curve.params.field, elt_eq, R.ok_bind, ePoint]
  by_cases hon : val p e.a * (x : ZMod p) ^ 2 + (y : ZMod p) ^ 2 = 1 + val p e.d * (x : ZMod p) ^ 2 * (y : ZMod p) ^ 2
  · rw [dif_pos hon]
    exact .inl ⟨_, _, by rw [hn, if_pos hon], rfl, ELink.denotes_iff.2 ⟨_, _, _, _, rfl, one_ne_zero, by ring, by ring, by ring⟩⟩
  · rw [dif_neg hon, hn, if_neg hon]
    exact .inr ⟨_, rfl, rfl⟩

theorem edwards_encode (e : Edwards.Curve) (h : EValid p e) [ECurve p e] {P : Edwards.Point} {A : eGroup p e} (hP : EDenotes p e P A) (c : Bool) : ∃ bs, P.encode c = R.ok bs := by
  obtain ⟨x, y, t, z, rfl, -⟩ := ELink.denotes_iff.1 hP
  obtain ⟨xs, b, hb, -⟩ := ELink.encode_pt h.curve.params x y t z c
  exact ⟨_, hb⟩

/-- C122, Edwards. There are an encoding and a decoding of the elements of the group, inverse to each other, such that every client, whatever it
computes and observes, has with the library the outcome it has with the group; whatever representatives of the points it starts with. -/
theorem _root_.Redox.Props.C122_edwards (e : Edwards.Curve) (h : EValid p e) [ECurve p e] (hs : p % 4 = 3 ∨ p % 8 = 5) (G : Edwards.Point) (g : eGroup p e)
    (hG : e.getGenerator = R.ok G) (hg : EDenotes p e G g) :
    ∃ (enc : eGroup p e → Bool → List Byte) (dec : List Byte → R (Except DecodeError (eGroup p e))),
      (∀ A c, dec (enc A c) = R.ok (.ok A)) ∧
      ∀ (prof : Profile) (α : Type) (cl : Client α) (s : ℕ → Edwards.Point) (ρ : ℕ → eGroup p e), (∀ i, EDenotes p e (s i) (ρ i)) →
        cl.run (eApi prof e) s = cl.run (groupApi prof e.getOrder g (ePoint p e) (fun A => A = 0 ∨ (A.x = 0 ∧ A.y = -1)) enc dec) ρ := by
  have law := fun P Q A B hP hQ => C36_group_law p e P Q A B hP hQ
  have ret : ∀ {x : R Edwards.Point} {A : eGroup p e}, EReturns p e x A → RelR (EDenotes p e) x (R.ok A) :=
    fun ⟨S, hS, dS⟩ => .inl ⟨S, _, hS, rfl, dS⟩
  have hd : ∀ bs Q, e.decode bs = R.ok (.ok Q) → ∃ A, EDenotes p e Q A := fun bs Q hQ => by
    obtain ⟨A, -, hd⟩ := (C105_edwards_decode p e hs bs).1 Q hQ
    exact ⟨_, hd⟩
  have same : ∀ (a b : Edwards.Point) (A : eGroup p e) (c : Bool), EDenotes p e a A → EDenotes p e b A → a.encode c = b.encode c :=
    fun a b A c ha hb => (C39_injective p e hs a b A A ha hb c c).2 rfl
  refine ⟨encOf (EDenotes p e) (fun P c => P.encode c), decOf (EDenotes p e) e.decode, ?_, ?_⟩
  · intro A c
    obtain ⟨P, dP⟩ := edwards_point p e A
    obtain ⟨bs, Q, hb, -, -, hdc, dQ, -⟩ := C39_roundtrip p e hs P A dP c
    rw [encOf_spec (EDenotes p e) (fun P c => P.encode c) same dP hb]
    rcases decOf_spec (EDenotes p e) e.decode bs (hd bs) with ⟨Q', B, h1, h2, dB⟩ | ⟨err, h1, -⟩ | ⟨f, h1, -⟩
    · rw [hdc, R.ok.injEq, Except.ok.injEq] at h1
      subst h1
      have := e_eq p e dQ dB
      have h3 := e_eq p e dQ dQ
      rw [this, R.ok.injEq, decide_eq_decide] at h3
      rw [h2, h3.2 rfl]
    · rw [hdc] at h1; cases h1
    · rw [hdc] at h1; cases h1
  · intro prof α cl s ρ hsρ
    refine run_eq (Rel := EDenotes p e) ?_ cl s ρ hsρ
    refine
      { identity := ?_, generator := .inl ⟨G, g, hG, rfl, hg⟩, point := edwards_new p e h, add := fun P Q A B hP hQ => ret (law P Q A B hP hQ).1,
        sub := fun P Q A B hP hQ => ret (law P Q A B hP hQ).2.1, neg := fun P A hP => ret (law P P A A hP hP).2.2.1, mul := ?_, eq := ?_, isZero := ?_,
        encode := ?_, decode := fun bs => decOf_spec (EDenotes p e) e.decode bs (hd bs) }
    · exact ret (law G G g g hg hg).2.2.2
    · intro P A n hP
      have hr := h.order_prime.one_le
      have hn : e.newScalar n = R.ok ⟨n % e.r, e.r⟩ := scalar_new_eq e.r hr n
      have hc : CanonScalar e.r ⟨n % e.r, e.r⟩ := ⟨rfl, Int.emod_nonneg _ (Int.natCast_ne_zero.2 h.order_prime.ne_zero), Int.emod_lt_of_pos _ (by exact_mod_cast hr)⟩
      simp only [eApi, groupApi, hn, R.ok_bind]
      split
      · rename_i h0
        obtain ⟨rfl, h0⟩ := h0
        have h0 : n % e.r = 0 := Int.emod_eq_zero_of_dvd h0
        rw [h0]
        exact .inr ⟨_, C37_refuted_zero p e h.curve.params P hP.1, rfl⟩
      · rename_i h0
        refine ret (C37_mul_partial p e h.order_bits prof P A hP _ hc ?_)
        rcases prof with _ | _
        · exact .inl fun hz => h0 ⟨rfl, Int.dvd_of_emod_eq_zero hz⟩
        · exact .inr rfl
    · intro P Q A B hP hQ
      refine (e_eq p e hP hQ).trans (congrArg R.ok ?_)
      exact decide_eq_decide.2 Iff.rfl
    · intro P A hP
      refine Bool.eq_iff_iff.2 ((C38_exact_partial p e P A hP).trans ?_)
      simp [groupApi]
    · intro P A c hP
      obtain ⟨bs, hb⟩ := edwards_encode p e h hP c
      exact hb.trans (congrArg R.ok (encOf_spec (EDenotes p e) (fun P c => P.encode c) same hP hb).symm)

/-- C122, Edwards: no client can tell representatives apart. It has the same outcome, panics included, whatever representatives of the same points it starts with. -/
theorem _root_.Redox.Props.C122_edwards_same (e : Edwards.Curve) (h : EValid p e) [ECurve p e] (hs : p % 4 = 3 ∨ p % 8 = 5) (prof : Profile) {α : Type} (cl : Client α)
    (s s' : ℕ → Edwards.Point) (ρ : ℕ → eGroup p e) (hρ : ∀ i, EDenotes p e (s i) (ρ i)) (hρ' : ∀ i, EDenotes p e (s' i) (ρ i)) :
    cl.run (eApi prof e) s = cl.run (eApi prof e) s' := by
  obtain ⟨G, g, hG, hg, -⟩ := h.generator
  obtain ⟨enc, dec, -, hr⟩ := C122_edwards p e h hs G g hG hg
  rw [hr prof α cl s ρ hρ, hr prof α cl s' ρ hρ']

end

/-- C122 on the named Weierstrass curves. -/
theorem _root_.Redox.Props.C122_named_weierstrass : ∀ c ∈ weierstrassList, ∃ (_ : Fact c.2.Prime) (e : Weierstrass.Curve) (g : (wGroup c.2 e).Point),
    c.1 = R.ok e ∧ addOrderOf g = e.getOrder ∧
    ∃ (enc : (wGroup c.2 e).Point → Bool → List Byte) (dec : List Byte → R (Except DecodeError ((wGroup c.2 e).Point))),
      (∀ A c, A ≠ 0 → dec (enc A c) = R.ok (.ok A)) ∧
      ∀ (prof : Profile) (α : Type) (cl : Client α) (s : ℕ → Weierstrass.Point) (ρ : ℕ → (wGroup c.2 e).Point), (∀ i, WDenotes c.2 e (s i) (ρ i)) →
        cl.run (wApi prof e) s = cl.run (groupApi prof e.getOrder g (wPoint c.2 e) (fun A => A = 0) enc dec) ρ := by
  intro c hc
  obtain ⟨hp, e, he, hv⟩ := C49_weierstrass c hc
  have hs : ∀ c ∈ weierstrassList, c.2 % 4 = 3 ∨ c.2 % 8 = 5 := by decide +kernel
  obtain ⟨G, g, hG, hg, ho⟩ := hv.generator
  exact ⟨hp, e, g, he, ho, C122_weierstrass c.2 e hv (hs c hc) G g hG hg⟩

/-- C122 on the named Montgomery curves. -/
theorem _root_.Redox.Props.C122_named_montgomery : ∀ c ∈ montgomeryList, ∃ (_ : Fact c.2.Prime) (e : Montgomery.Curve) (g : (mGroup c.2 e).Point),
    c.1 = R.ok e ∧ addOrderOf g = e.getOrder ∧
    ∃ (enc : (mGroup c.2 e).Point → Bool → List Byte) (dec : List Byte → R (Except DecodeError ((mGroup c.2 e).Point))),
      (∀ A c, A ≠ 0 → dec (enc A c) = R.ok (.ok A)) ∧
      ∀ (prof : Profile) (α : Type) (cl : Client α) (s : ℕ → Montgomery.Point) (ρ : ℕ → (mGroup c.2 e).Point), (∀ i, MDenotes c.2 e (s i) (ρ i)) →
        cl.run (mApi prof e) s = cl.run (groupApi prof e.getOrder g (mPoint c.2 e) (fun A => A = 0) enc dec) ρ := by
  intro c hc
  obtain ⟨hp, e, he, hv⟩ := C49_montgomery c hc
  have hs : ∀ c ∈ montgomeryList, c.2 % 4 = 3 ∨ c.2 % 8 = 5 := by decide +kernel
  obtain ⟨G, g, hG, hg, ho⟩ := hv.generator
  exact ⟨hp, e, g, he, ho, C122_montgomery c.2 e hv (hs c hc) G g hG hg⟩

/-- C122 on the named Edwards curves. -/
theorem _root_.Redox.Props.C122_named_edwards : ∀ c ∈ edwardsList, ∃ (_ : Fact c.2.Prime) (e : Edwards.Curve) (_ : ECurve c.2 e) (g : eGroup c.2 e),
    c.1 = R.ok e ∧ addOrderOf g = e.getOrder ∧
    ∃ (enc : eGroup c.2 e → Bool → List Byte) (dec : List Byte → R (Except DecodeError (eGroup c.2 e))),
      (∀ A c, dec (enc A c) = R.ok (.ok A)) ∧
      ∀ (prof : Profile) (α : Type) (cl : Client α) (s : ℕ → Edwards.Point) (ρ : ℕ → eGroup c.2 e), (∀ i, EDenotes c.2 e (s i) (ρ i)) →
        cl.run (eApi prof e) s = cl.run (groupApi prof e.getOrder g (ePoint c.2 e) (fun A => A = 0 ∨ (A.x = 0 ∧ A.y = -1)) enc dec) ρ := by
  intro c hc
  obtain ⟨hp, e, he, hv⟩ := C49_edwards c hc
  have hs : ∀ c ∈ edwardsList, c.2 % 4 = 3 ∨ c.2 % 8 = 5 := by decide +kernel
  obtain ⟨G, g, hG, hg, ho⟩ := hv.generator
  have := hv.curve
  exact ⟨hp, e, hv.curve, g, he, ho, C122_edwards c.2 e hv (hs c hc) G g hG hg⟩

end Redox.Props.ClientProps
