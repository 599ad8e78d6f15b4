import Verif.Props.Commit

/-!
# C116: shares that can be checked

A dealer shares the constant term of a polynomial (C96) and publishes the generator times each coefficient. The holder of `x` checks a share against the published
points. The programs below are what a user of the library writes.
-/

set_option linter.unusedSectionVars false

namespace Redox.Props.Feldman

open Spec Redox.Inst Redox.Props.Flow Redox.Props.Threshold Redox.Props.Commit

/-- The sum of share times Lagrange coefficient over pairs of an identifier and a share; `xs` are all identifiers. -/
def combine (mk : ℤ → R Scalar) (xs : List ℤ) : List (ℤ × ℤ) → R Scalar
  | [] => mk 0
  | (x, s) :: t => do (← (← mk s).mul (← lagrange mk xs x)).add (← combine mk xs t)

theorem combine_eq {r : ℕ} (hr : r.Prime) (h2 : r ≠ 2) (cs : List ℤ) (l : List (ℤ × ℤ)) (hlen : cs.length ≤ l.length)
    (hd : l.Pairwise fun a b => ¬ (r : ℤ) ∣ a.1 - b.1) (hs : ∀ a ∈ l, (r : ℤ) ∣ a.2 - polyValue a.1 cs) :
    combine (Scalar.new · r) (l.map (·.1)) l = Scalar.new (cs.headD 0) r := by
  have hfact := Fact.mk hr
  rw [← C96_scalars r hr h2 cs (l.map (·.1)) (by simpa using hlen) (List.pairwise_map.2 hd)]
  have : ∀ xs, ∀ l : List (ℤ × ℤ), (∀ a ∈ l, (r : ℤ) ∣ a.2 - polyValue a.1 cs) → combine (Scalar.new · r) xs l = recover (Scalar.new · r) cs xs (l.map (·.1)) := by
    intro xs l
    induction l with
    | nil => intro _; rfl
    | cons a l ih =>
      intro hs
      obtain ⟨x, s⟩ := a
      have h1 : (s : ZMod r) = (polyValue x cs : ℤ) := by
        have := (ZMod.intCast_zmod_eq_zero_iff_dvd _ r).2 (hs (x, s) (by simp))
        simpa [sub_eq_zero] using this
      rw [combine, ih fun a ha => hs a (by simp [ha]), List.map_cons, recover, share_sc (new_sc r), new_sc, h1]
  exact this _ l hs

section
variable (p : ℕ) [Fact p.Prime]

/-- The value at `x` of the polynomial whose coefficients are the points, constant term first (Weierstrass). -/
def wHorner (prof : Profile) (e : Weierstrass.Curve) (x : ℤ) : List Weierstrass.Point → R Weierstrass.Point
  | [] => e.identity
  | C :: t => do C.add (← (← wHorner prof e x t).mul prof (← e.newScalar x))

/-- The dealer publishes the generator times each coefficient (Weierstrass). -/
def wDeal (prof : Profile) (e : Weierstrass.Curve) : List ℤ → R (List Weierstrass.Point)
  | [] => R.ok []
  | c :: cs => do
    let C ← (← e.getGenerator).mul prof (← e.newScalar c)
    return C :: (← wDeal prof e cs)

/-- The holder of `x` checks the share `s` against the published points (Weierstrass). -/
def wCheck (prof : Profile) (e : Weierstrass.Curve) (x s : ℤ) (Cs : List Weierstrass.Point) : R Bool := do
  (← (← e.getGenerator).mul prof (← e.newScalar s)).eq (← wHorner prof e x Cs)

theorem w_horner (e : Weierstrass.Curve) (h : WValid p e) (prof : Profile) {g : (wGroup p e).Point} (hk : e.r • g = 0) (x : ℤ) (hx : ¬ (e.r : ℤ) ∣ x ∨ prof = .release) :
    ∀ (Cs : List Weierstrass.Point) (cs : List ℤ), List.Forall₂ (fun C c => WDenotes p e C (c • g)) Cs cs →
      ∃ S, wHorner prof e x Cs = R.ok S ∧ WDenotes p e S (polyValue x cs • g) := by
  intro Cs cs hc
  induction hc with
  | nil =>
    obtain ⟨I, hI, dI⟩ := (let ⟨I, hI, hId, _⟩ := C22_identity p e h.curve; ⟨I, hI, hId⟩ : ∃ I, e.identity = R.ok I ∧ WDenotes p e I 0)
    exact ⟨I, hI, by rw [polyValue, zero_zsmul]; exact dI⟩
  | @cons C c Cs cs hC _ ih =>
    obtain ⟨T, hT, dT⟩ := ih
    obtain ⟨s, U, hs, hU, dU⟩ := w_mul p e h prof dT (by rw [smul_comm, hk, zsmul_zero]) x hx
    obtain ⟨S, hS, dS⟩ := (C23_group_law p e h.curve h.complete C U _ _ hC dU).1
    refine ⟨S, by simp only [wHorner, hT, hs, hU, hS, R.ok_bind], ?_⟩
    rw [polyValue, add_zsmul, mul_comm, mul_zsmul]
    exact dS

theorem w_deal (e : Weierstrass.Curve) (h : WValid p e) (prof : Profile) {G : Weierstrass.Point} {g : (wGroup p e).Point} (hG : e.getGenerator = R.ok G) (hg : WDenotes p e G g)
    (hk : e.r • g = 0) : ∀ cs : List ℤ, ((∀ c ∈ cs, ¬ (e.r : ℤ) ∣ c) ∨ prof = .release) →
      ∃ Cs, wDeal prof e cs = R.ok Cs ∧ List.Forall₂ (fun C c => WDenotes p e C (c • g)) Cs cs := by
  intro cs
  induction cs with
  | nil => exact fun _ => ⟨[], rfl, .nil⟩
  | cons c cs ih =>
    intro h0
    obtain ⟨Cs, hCs, hF⟩ := ih (h0.imp (fun h c hc => h c (by simp [hc])) id)
    obtain ⟨s, C, hs, hC, dC⟩ := w_mul p e h prof hg hk c (h0.imp (fun h => h c (by simp)) id)
    exact ⟨C :: Cs, by simp only [wDeal, hG, hs, hC, hCs, R.ok_bind]; rfl, .cons dC hF⟩

theorem w_check (e : Weierstrass.Curve) (h : WValid p e) (prof : Profile) {G : Weierstrass.Point} {g : (wGroup p e).Point} (hG : e.getGenerator = R.ok G) (hg : WDenotes p e G g)
    (Cs : List Weierstrass.Point) (cs : List ℤ) (hc : List.Forall₂ (fun C c => WDenotes p e C (c • g)) Cs cs) (x s : ℤ)
    (h0 : (¬ (e.r : ℤ) ∣ x ∧ ¬ (e.r : ℤ) ∣ s) ∨ prof = .release) :
    wCheck prof e x s Cs = R.ok (decide ((e.r : ℤ) ∣ s - polyValue x cs)) := by
  obtain ⟨ho, hk⟩ := w_gen p e h hG hg
  obtain ⟨S, hS, dS⟩ := w_horner p e h prof hk x (h0.imp (·.1) id) Cs cs hc
  obtain ⟨t, T, ht, hT, dT⟩ := w_mul p e h prof hg hk s (h0.imp (·.2) id)
  simp only [wCheck, hG, ht, hT, hS, R.ok_bind, w_eq p e dT dS, R.ok.injEq]
  refine decide_eq_decide.2 ?_
  rw [← sub_eq_zero, sub_eq_add_neg, ← sub_zsmul, zsmul_eq_iff ho]

/-- C116, Weierstrass: dealing returns one point per coefficient; against them, the check accepts a share exactly if it is the value of the polynomial modulo the order. -/
theorem _root_.Redox.Props.C116_weierstrass (e : Weierstrass.Curve) (h : WValid p e) (prof : Profile) (cs : List ℤ)
    (h0 : (∀ c ∈ cs, ¬ (e.getOrder : ℤ) ∣ c) ∨ prof = .release) :
    ∃ Cs, wDeal prof e cs = R.ok Cs ∧ Cs.length = cs.length ∧
      ∀ x s : ℤ, ((¬ (e.getOrder : ℤ) ∣ x ∧ ¬ (e.getOrder : ℤ) ∣ s) ∨ prof = .release) →
        wCheck prof e x s Cs = R.ok (decide ((e.getOrder : ℤ) ∣ s - polyValue x cs)) := by
  obtain ⟨G, g, hG, hg, -⟩ := h.generator
  obtain ⟨Cs, hCs, hF⟩ := w_deal p e h prof hG hg (w_gen p e h hG hg).2 cs h0
  exact ⟨Cs, hCs, hF.length_eq, fun x s h1 => w_check p e h prof hG hg Cs cs hF x s h1⟩

/-- C116, Weierstrass: whatever multiples of the generator were published, shares that were accepted, of identifiers that are distinct modulo the order and at least as
many as there are published points, combine to the discrete logarithm of the first published point. -/
theorem _root_.Redox.Props.C116_weierstrass_sound (e : Weierstrass.Curve) (h : WValid p e) (hr2 : e.getOrder ≠ 2) (prof : Profile) (G : Weierstrass.Point) (g : (wGroup p e).Point)
    (hG : e.getGenerator = R.ok G) (hg : WDenotes p e G g) (Cs : List Weierstrass.Point) (cs : List ℤ)
    (hc : List.Forall₂ (fun C c => WDenotes p e C (c • g)) Cs cs) (l : List (ℤ × ℤ)) (hlen : Cs.length ≤ l.length)
    (hd : l.Pairwise fun a b => ¬ (e.getOrder : ℤ) ∣ a.1 - b.1)
    (h0 : (∀ a ∈ l, ¬ (e.getOrder : ℤ) ∣ a.1 ∧ ¬ (e.getOrder : ℤ) ∣ a.2) ∨ prof = .release)
    (hacc : ∀ a ∈ l, wCheck prof e a.1 a.2 Cs = R.ok true) :
    combine e.newScalar (l.map (·.1)) l = e.newScalar (cs.headD 0) := by
  refine combine_eq h.order_prime hr2 cs l (by rw [← hc.length_eq]; exact hlen) hd fun a ha => ?_
  have := hacc a ha
  rwa [w_check p e h prof hG hg Cs cs hc a.1 a.2 (h0.imp (fun h => h a ha) id), R.ok.injEq, decide_eq_true_iff] at this

/-- The value at `x` of the polynomial whose coefficients are the points, constant term first (Montgomery). -/
def mHorner (prof : Profile) (e : Montgomery.Curve) (x : ℤ) : List Montgomery.Point → R Montgomery.Point
  | [] => e.identity
  | C :: t => do C.add (← (← mHorner prof e x t).mul prof (← e.newScalar x))

/-- The dealer publishes the generator times each coefficient (Montgomery). -/
def mDeal (prof : Profile) (e : Montgomery.Curve) : List ℤ → R (List Montgomery.Point)
  | [] => R.ok []
  | c :: cs => do
    let C ← (← e.getGenerator).mul prof (← e.newScalar c)
    return C :: (← mDeal prof e cs)

/-- The holder of `x` checks the share `s` against the published points (Montgomery). -/
def mCheck (prof : Profile) (e : Montgomery.Curve) (x s : ℤ) (Cs : List Montgomery.Point) : R Bool := do
  (← (← e.getGenerator).mul prof (← e.newScalar s)).eq (← mHorner prof e x Cs)

theorem m_horner (e : Montgomery.Curve) (h : MValid p e) (prof : Profile) {g : (mGroup p e).Point} (hk : e.r • g = 0) (x : ℤ) (hx : ¬ (e.r : ℤ) ∣ x ∨ prof = .release) :
    ∀ (Cs : List Montgomery.Point) (cs : List ℤ), List.Forall₂ (fun C c => MDenotes p e C (c • g)) Cs cs →
      ∃ S, mHorner prof e x Cs = R.ok S ∧ MDenotes p e S (polyValue x cs • g) := by
  intro Cs cs hc
  induction hc with
  | nil =>
    obtain ⟨I, hI, dI⟩ := (Mo.identity_denotes h.curve : ∃ I, e.identity = R.ok I ∧ MDenotes p e I 0)
    exact ⟨I, hI, by rw [polyValue, zero_zsmul]; exact dI⟩
  | @cons C c Cs cs hC _ ih =>
    obtain ⟨T, hT, dT⟩ := ih
    obtain ⟨s, U, hs, hU, dU⟩ := m_mul p e h prof dT (by rw [smul_comm, hk, zsmul_zero]) x hx
    obtain ⟨S, hS, dS⟩ := (C32_group_law_partial p e h.curve h.b_one h.complete C U _ _ hC dU).1
    refine ⟨S, by simp only [mHorner, hT, hs, hU, hS, R.ok_bind], ?_⟩
    rw [polyValue, add_zsmul, mul_comm, mul_zsmul]
    exact dS

theorem m_deal (e : Montgomery.Curve) (h : MValid p e) (prof : Profile) {G : Montgomery.Point} {g : (mGroup p e).Point} (hG : e.getGenerator = R.ok G) (hg : MDenotes p e G g)
    (hk : e.r • g = 0) : ∀ cs : List ℤ, ((∀ c ∈ cs, ¬ (e.r : ℤ) ∣ c) ∨ prof = .release) →
      ∃ Cs, mDeal prof e cs = R.ok Cs ∧ List.Forall₂ (fun C c => MDenotes p e C (c • g)) Cs cs := by
  intro cs
  induction cs with
  | nil => exact fun _ => ⟨[], rfl, .nil⟩
  | cons c cs ih =>
    intro h0
    obtain ⟨Cs, hCs, hF⟩ := ih (h0.imp (fun h c hc => h c (by simp [hc])) id)
    obtain ⟨s, C, hs, hC, dC⟩ := m_mul p e h prof hg hk c (h0.imp (fun h => h c (by simp)) id)
    exact ⟨C :: Cs, by simp only [mDeal, hG, hs, hC, hCs, R.ok_bind]; rfl, .cons dC hF⟩

theorem m_check (e : Montgomery.Curve) (h : MValid p e) (prof : Profile) {G : Montgomery.Point} {g : (mGroup p e).Point} (hG : e.getGenerator = R.ok G) (hg : MDenotes p e G g)
    (Cs : List Montgomery.Point) (cs : List ℤ) (hc : List.Forall₂ (fun C c => MDenotes p e C (c • g)) Cs cs) (x s : ℤ)
    (h0 : (¬ (e.r : ℤ) ∣ x ∧ ¬ (e.r : ℤ) ∣ s) ∨ prof = .release) :
    mCheck prof e x s Cs = R.ok (decide ((e.r : ℤ) ∣ s - polyValue x cs)) := by
  obtain ⟨ho, hk⟩ := m_gen p e h hG hg
  obtain ⟨S, hS, dS⟩ := m_horner p e h prof hk x (h0.imp (·.1) id) Cs cs hc
  obtain ⟨t, T, ht, hT, dT⟩ := m_mul p e h prof hg hk s (h0.imp (·.2) id)
  simp only [mCheck, hG, ht, hT, hS, R.ok_bind, m_eq p e dT dS, R.ok.injEq]
  refine decide_eq_decide.2 ?_
  rw [← sub_eq_zero, sub_eq_add_neg, ← sub_zsmul, zsmul_eq_iff ho]

/-- C116, Montgomery: dealing returns one point per coefficient; against them, the check accepts a share exactly if it is the value of the polynomial modulo the order. -/
theorem _root_.Redox.Props.C116_montgomery (e : Montgomery.Curve) (h : MValid p e) (prof : Profile) (cs : List ℤ)
    (h0 : (∀ c ∈ cs, ¬ (e.getOrder : ℤ) ∣ c) ∨ prof = .release) :
    ∃ Cs, mDeal prof e cs = R.ok Cs ∧ Cs.length = cs.length ∧
      ∀ x s : ℤ, ((¬ (e.getOrder : ℤ) ∣ x ∧ ¬ (e.getOrder : ℤ) ∣ s) ∨ prof = .release) →
        mCheck prof e x s Cs = R.ok (decide ((e.getOrder : ℤ) ∣ s - polyValue x cs)) := by
  obtain ⟨G, g, hG, hg, -⟩ := h.generator
  obtain ⟨Cs, hCs, hF⟩ := m_deal p e h prof hG hg (m_gen p e h hG hg).2 cs h0
  exact ⟨Cs, hCs, hF.length_eq, fun x s h1 => m_check p e h prof hG hg Cs cs hF x s h1⟩

/-- C116, Montgomery: whatever multiples of the generator were published, shares that were accepted, of identifiers that are distinct modulo the order and at least as
many as there are published points, combine to the discrete logarithm of the first published point. -/
theorem _root_.Redox.Props.C116_montgomery_sound (e : Montgomery.Curve) (h : MValid p e) (hr2 : e.getOrder ≠ 2) (prof : Profile) (G : Montgomery.Point) (g : (mGroup p e).Point)
    (hG : e.getGenerator = R.ok G) (hg : MDenotes p e G g) (Cs : List Montgomery.Point) (cs : List ℤ)
    (hc : List.Forall₂ (fun C c => MDenotes p e C (c • g)) Cs cs) (l : List (ℤ × ℤ)) (hlen : Cs.length ≤ l.length)
    (hd : l.Pairwise fun a b => ¬ (e.getOrder : ℤ) ∣ a.1 - b.1)
    (h0 : (∀ a ∈ l, ¬ (e.getOrder : ℤ) ∣ a.1 ∧ ¬ (e.getOrder : ℤ) ∣ a.2) ∨ prof = .release)
    (hacc : ∀ a ∈ l, mCheck prof e a.1 a.2 Cs = R.ok true) :
    combine e.newScalar (l.map (·.1)) l = e.newScalar (cs.headD 0) := by
  refine combine_eq h.order_prime hr2 cs l (by rw [← hc.length_eq]; exact hlen) hd fun a ha => ?_
  have := hacc a ha
  rwa [m_check p e h prof hG hg Cs cs hc a.1 a.2 (h0.imp (fun h => h a ha) id), R.ok.injEq, decide_eq_true_iff] at this

/-- The value at `x` of the polynomial whose coefficients are the points, constant term first (Edwards). -/
def eHorner (prof : Profile) (e : Edwards.Curve) (x : ℤ) : List Edwards.Point → R Edwards.Point
  | [] => e.identity
  | C :: t => do C.add (← (← eHorner prof e x t).mul prof (← e.newScalar x))

/-- The dealer publishes the generator times each coefficient (Edwards). -/
def eDeal (prof : Profile) (e : Edwards.Curve) : List ℤ → R (List Edwards.Point)
  | [] => R.ok []
  | c :: cs => do
    let C ← (← e.getGenerator).mul prof (← e.newScalar c)
    return C :: (← eDeal prof e cs)

/-- The holder of `x` checks the share `s` against the published points (Edwards). -/
def eCheck (prof : Profile) (e : Edwards.Curve) (x s : ℤ) (Cs : List Edwards.Point) : R Bool := do
  (← (← e.getGenerator).mul prof (← e.newScalar s)).eq (← eHorner prof e x Cs)

theorem e_horner (e : Edwards.Curve) (h : EValid p e) [ECurve p e] (prof : Profile) {g : eGroup p e} (hk : e.r • g = 0) (x : ℤ) (hx : ¬ (e.r : ℤ) ∣ x ∨ prof = .release) :
    ∀ (Cs : List Edwards.Point) (cs : List ℤ), List.Forall₂ (fun C c => EDenotes p e C (c • g)) Cs cs →
      ∃ S, eHorner prof e x Cs = R.ok S ∧ EDenotes p e S (polyValue x cs • g) := by
  intro Cs cs hc
  induction hc with
  | nil =>
    obtain ⟨I, hI, dI⟩ := (⟨_, ELink.identity_pt ECurve.params, ELink.identity_denotes⟩ : ∃ I, e.identity = R.ok I ∧ EDenotes p e I 0)
    exact ⟨I, hI, by rw [polyValue, zero_zsmul]; exact dI⟩
  | @cons C c Cs cs hC _ ih =>
    obtain ⟨T, hT, dT⟩ := ih
    obtain ⟨s, U, hs, hU, dU⟩ := e_mul p e h prof dT (by rw [smul_comm, hk, zsmul_zero]) x hx
    obtain ⟨S, hS, dS⟩ := (C36_group_law p e C U _ _ hC dU).1
    refine ⟨S, by simp only [eHorner, hT, hs, hU, hS, R.ok_bind], ?_⟩
    rw [polyValue, add_zsmul, mul_comm, mul_zsmul]
    exact dS

theorem e_deal (e : Edwards.Curve) (h : EValid p e) [ECurve p e] (prof : Profile) {G : Edwards.Point} {g : eGroup p e} (hG : e.getGenerator = R.ok G) (hg : EDenotes p e G g)
    (hk : e.r • g = 0) : ∀ cs : List ℤ, ((∀ c ∈ cs, ¬ (e.r : ℤ) ∣ c) ∨ prof = .release) →
      ∃ Cs, eDeal prof e cs = R.ok Cs ∧ List.Forall₂ (fun C c => EDenotes p e C (c • g)) Cs cs := by
  intro cs
  induction cs with
  | nil => exact fun _ => ⟨[], rfl, .nil⟩
  | cons c cs ih =>
    intro h0
    obtain ⟨Cs, hCs, hF⟩ := ih (h0.imp (fun h c hc => h c (by simp [hc])) id)
    obtain ⟨s, C, hs, hC, dC⟩ := e_mul p e h prof hg hk c (h0.imp (fun h => h c (by simp)) id)
    exact ⟨C :: Cs, by simp only [eDeal, hG, hs, hC, hCs, R.ok_bind]; rfl, .cons dC hF⟩

theorem e_check (e : Edwards.Curve) (h : EValid p e) [ECurve p e] (prof : Profile) {G : Edwards.Point} {g : eGroup p e} (hG : e.getGenerator = R.ok G) (hg : EDenotes p e G g)
    (Cs : List Edwards.Point) (cs : List ℤ) (hc : List.Forall₂ (fun C c => EDenotes p e C (c • g)) Cs cs) (x s : ℤ)
    (h0 : (¬ (e.r : ℤ) ∣ x ∧ ¬ (e.r : ℤ) ∣ s) ∨ prof = .release) :
    eCheck prof e x s Cs = R.ok (decide ((e.r : ℤ) ∣ s - polyValue x cs)) := by
  obtain ⟨ho, hk⟩ := e_gen p e h hG hg
  obtain ⟨S, hS, dS⟩ := e_horner p e h prof hk x (h0.imp (·.1) id) Cs cs hc
  obtain ⟨t, T, ht, hT, dT⟩ := e_mul p e h prof hg hk s (h0.imp (·.2) id)
  simp only [eCheck, hG, ht, hT, hS, R.ok_bind, e_eq p e dT dS, R.ok.injEq]
  refine decide_eq_decide.2 ?_
  rw [← sub_eq_zero, sub_eq_add_neg, ← sub_zsmul, zsmul_eq_iff ho]

/-- C116, Edwards: dealing returns one point per coefficient; against them, the check accepts a share exactly if it is the value of the polynomial modulo the order. -/
theorem _root_.Redox.Props.C116_edwards (e : Edwards.Curve) (h : EValid p e) [ECurve p e] (prof : Profile) (cs : List ℤ)
    (h0 : (∀ c ∈ cs, ¬ (e.getOrder : ℤ) ∣ c) ∨ prof = .release) :
    ∃ Cs, eDeal prof e cs = R.ok Cs ∧ Cs.length = cs.length ∧
      ∀ x s : ℤ, ((¬ (e.getOrder : ℤ) ∣ x ∧ ¬ (e.getOrder : ℤ) ∣ s) ∨ prof = .release) →
        eCheck prof e x s Cs = R.ok (decide ((e.getOrder : ℤ) ∣ s - polyValue x cs)) := by
  obtain ⟨G, g, hG, hg, -⟩ := h.generator
  obtain ⟨Cs, hCs, hF⟩ := e_deal p e h prof hG hg (e_gen p e h hG hg).2 cs h0
  exact ⟨Cs, hCs, hF.length_eq, fun x s h1 => e_check p e h prof hG hg Cs cs hF x s h1⟩

/-- C116, Edwards: whatever multiples of the generator were published, shares that were accepted, of identifiers that are distinct modulo the order and at least as
many as there are published points, combine to the discrete logarithm of the first published point. -/
theorem _root_.Redox.Props.C116_edwards_sound (e : Edwards.Curve) (h : EValid p e) [ECurve p e] (hr2 : e.getOrder ≠ 2) (prof : Profile) (G : Edwards.Point) (g : eGroup p e)
    (hG : e.getGenerator = R.ok G) (hg : EDenotes p e G g) (Cs : List Edwards.Point) (cs : List ℤ)
    (hc : List.Forall₂ (fun C c => EDenotes p e C (c • g)) Cs cs) (l : List (ℤ × ℤ)) (hlen : Cs.length ≤ l.length)
    (hd : l.Pairwise fun a b => ¬ (e.getOrder : ℤ) ∣ a.1 - b.1)
    (h0 : (∀ a ∈ l, ¬ (e.getOrder : ℤ) ∣ a.1 ∧ ¬ (e.getOrder : ℤ) ∣ a.2) ∨ prof = .release)
    (hacc : ∀ a ∈ l, eCheck prof e a.1 a.2 Cs = R.ok true) :
    combine e.newScalar (l.map (·.1)) l = e.newScalar (cs.headD 0) := by
  refine combine_eq h.order_prime hr2 cs l (by rw [← hc.length_eq]; exact hlen) hd fun a ha => ?_
  have := hacc a ha
  rwa [e_check p e h prof hG hg Cs cs hc a.1 a.2 (h0.imp (fun h => h a ha) id), R.ok.injEq, decide_eq_true_iff] at this

end

end Redox.Props.Feldman
