import Verif.Props.EqProps
import Verif.Props.NamedMaps
import Verif.Props.MulExact

/-!
# C113: values that stand for no point

Addition at an exceptional pair (C24, C101), `pull` of the isogeny to curve448 at `(0, 0)` (C48) and the map to edwards448 at 0, 1 and -1 (C44)
return a value all of whose coordinates are zero. It stands for no point, but it passes the check of every operation. Here is what becomes of
it: every operation returns it again, it is `==` to everything, and apart from it every value that passes the check stands for a point.
-/

set_option maxRecDepth 100000

namespace Redox.Props.Hollow

open Spec Redox.Inst Redox.Props.Inst

theorem bitsDown_top {k : ℕ} (hk : k ≠ 0) : bitsDown k (Big.bits k) = true :: bitsDown k (Big.bits k - 1) := by
  obtain ⟨n, hn⟩ : ∃ n, Big.bits k = n + 1 := by
    rcases h : Big.bits k with _ | n
    · have := Big.lt_two_pow_bits k
      rw [h] at this
      omega
    · exact ⟨n, rfl⟩
  rw [hn, bitsDown, Nat.add_sub_cancel]
  congr 1
  have h1 := Big.lt_two_pow_bits k
  have h2 := Big.two_pow_bits_le hk
  rw [hn, Nat.add_sub_cancel] at h2
  rw [hn, pow_succ] at h1
  have : k / 2 ^ n = 1 := Nat.div_eq_of_lt_le (by omega) (by omega)
  rw [Nat.testBit_eq_decide_div_mod_eq, this]
  rfl

section weier
open Weierstrass WLink
variable (p : ℕ) [Fact p.Prime] (e : Curve)

/-- The value of the curve `e` over GF(p) all of whose coordinates are zero. -/
def wNone : Point := ⟨e, ⟨⟨0, ⟨p⟩⟩, ⟨0, ⟨p⟩⟩, ⟨0, ⟨p⟩⟩⟩⟩

theorem wNone_eq : wNone p e = pt e (0 : ZMod p) 0 0 := by simp [wNone, pt, el]

theorem w_cases {P : Point} (he : P.e = e) (hx : Canon p P.c.x) (hy : Canon p P.c.y) (hz : Canon p P.c.z) :
    ∃ x y z : ZMod p, P = pt e x y z := by
  obtain ⟨e', ⟨x, y, z⟩⟩ := P
  simp only at he hx hy hz
  subst he
  exact ⟨val p x, val p y, val p z, by simp only [pt, ← hx.eq_el, ← hy.eq_el, ← hz.eq_el]⟩

theorem w_add_none (he : WCurve p e) (x y z : ZMod p) :
    (pt e x y z).add (pt e (0 : ZMod p) 0 0) = R.ok (pt e (0 : ZMod p) 0 0) ∧
    (pt e (0 : ZMod p) 0 0).add (pt e x y z) = R.ok (pt e (0 : ZMod p) 0 0) := by
  constructor
  · have hb : ((pt e x y z).e == (pt e (0 : ZMod p) 0 0).e) = true := by simp [pt]
    rw [Point.add, hb, doIfEq_true, Point.coreAdd, coreAddCoords_pt (ea he) (eb he), R.ok_bind]
    change e.newProyPoint _ = _
    rw [newProyPoint_pt (ea he) (eb he)]
    simp [RCB.X3, RCB.Y3, RCB.Z3]
  · have hb : ((pt e (0 : ZMod p) 0 0).e == (pt e x y z).e) = true := by simp [pt]
    rw [Point.add, hb, doIfEq_true, Point.coreAdd, coreAddCoords_pt (ea he) (eb he), R.ok_bind]
    change e.newProyPoint _ = _
    rw [newProyPoint_pt (ea he) (eb he)]
    simp [RCB.X3, RCB.Y3, RCB.Z3]

theorem w_loop_none (he : WCurve p e) : ∀ l, (pt e (0 : ZMod p) 0 0).mulLoop l (pt e (0 : ZMod p) 0 0) = R.ok (pt e (0 : ZMod p) 0 0) := by
  intro l
  have hd : (pt e (0 : ZMod p) 0 0).coreDoubling = R.ok (pt e (0 : ZMod p) 0 0) := by
    rw [Point.coreDoubling, coreDoublingCoords_pt (ea he) (eb he) _ _ _ (by ring), R.ok_bind]
    change e.newProyPoint _ = _
    rw [newProyPoint_pt (ea he) (eb he)]
    simp [RCB.X3, RCB.Y3, RCB.Z3]
  induction l with
  | nil => rfl
  | cons b l ih =>
    rw [Point.mulLoop, hd, R.ok_bind]
    cases b
    · simpa using ih
    · simpa [(w_add_none p e he 0 0 0).1] using ih

theorem w_mul_none (he : WCurve p e) (hr : Big.bits e.r < usizeMod) (prof : Profile) (k : Scalar) (hk : CanonScalar e.r k) (h0 : k.k ≠ 0) :
    (pt e (0 : ZMod p) 0 0).mul prof k = R.ok (pt e (0 : ZMod p) 0 0) := by
  obtain ⟨k, r⟩ := k
  obtain ⟨rfl, hk0, hk1⟩ := hk
  lift k to ℕ using hk0
  simp only [Nat.cast_lt] at hk1
  have hk : k ≠ 0 := by simpa using h0
  have hb : Big.bits k < usizeMod := lt_of_le_of_lt (Big.bits_mono (by omega)) hr
  have e1 : (pt e (0 : ZMod p) 0 0).e = e := rfl
  rw [Point.mul, e1, beq_self_eq_true, doIfEq_true, Point.coreMul, e1, identity_pt he, R.ok_bind, iterLR_eq prof _ hk hb, R.ok_bind,
    bitsDown_top hk, Point.mulLoop]
  obtain ⟨S, hS, dS⟩ := double_pt he (A := (0 : (wGroup p e).Point)) (x := 0) (y := 1) (z := 0) ⟨rfl, one_ne_zero, rfl⟩
  obtain ⟨x, y, z, rfl, -⟩ := denotes_iff.1 dS
  rw [hS, R.ok_bind]
  simp only [if_true, (w_add_none p e he x y z).1, R.ok_bind]
  exact w_loop_none p e he _

/-- C113, Weierstrass. Let `O` have three zero coordinates. Sums, differences and products with `O` are `O` again, whatever the other operand
(any value that passes the check of the curve) and whatever the nonzero scalar; `==` with `O` is true; `is_zero` is false; and `O` is
encoded like the point at infinity. Every other value that passes the check of the curve stands for a point. -/
theorem _root_.Redox.Props.C113_weierstrass (he : WCurve p e) (Q : Point) (hQ : Q.e = e) (hx : Canon p Q.c.x) (hy : Canon p Q.c.y)
    (hz : Canon p Q.c.z) (hon : e.isOnCurve Q = R.ok true) :
    let O := wNone p e
    e.isOnCurve O = R.ok true ∧ O.add Q = R.ok O ∧ Q.add O = R.ok O ∧ O.sub Q = R.ok O ∧ Q.sub O = R.ok O ∧ O.neg = R.ok O ∧
    O.eq Q = R.ok true ∧ Q.eq O = R.ok true ∧ O.isZero = false ∧
    (Big.bits e.r < usizeMod → ∀ prof k, CanonScalar e.r k → k.k ≠ 0 → O.mul prof k = R.ok O) ∧
    (∀ c, O.encode c = do (← e.identity).encode c) ∧
    (Q ≠ O → ∃ A, WDenotes p e Q A) := by
  intro O
  obtain ⟨x, y, z, rfl⟩ := w_cases p e hQ hx hy hz
  have hO : O = pt e (0 : ZMod p) 0 0 := wNone_eq p e
  rw [hO]
  have hn : ∀ x y z : ZMod p, x ^ 3 + z * (z * (val p e.a * x + val p e.b * z) - y ^ 2) = 0 →
      (pt e x y z).neg = R.ok (pt e x (-y) z) := by
    intro x y z h
    have := newProyPoint_pt (ea he) (eb he) x (-y) z
    rw [if_pos (by linear_combination h)] at this
    simp only [Point.neg, pt, neg_el, R.ok_bind] at this ⊢
    exact this
  rw [isOnCurve_pt (ea he) (eb he), R.ok.injEq, decide_eq_true_eq] at hon
  have hn0 := hn 0 0 0 (by ring)
  rw [neg_zero] at hn0
  refine ⟨?_, (w_add_none p e he x y z).2, (w_add_none p e he x y z).1, ?_, ?_, hn0, ?_, ?_, ?_, w_mul_none p e he, ?_, ?_⟩
  · rw [isOnCurve_pt (ea he) (eb he)]; simp
  · rw [Point.sub, hn _ _ _ hon, R.ok_bind]; exact (w_add_none p e he x (-y) z).2
  · rw [Point.sub, hn0, R.ok_bind]; exact (w_add_none p e he x y z).1
  · rw [eq_pt]; simp
  · rw [eq_pt]; simp
  · rw [isZero_pt]; simp
  · intro c
    rw [identity_pt he, R.ok_bind, encode_pt he, encode_pt he]
    simp
  · intro hne
    have h0 : y ≠ 0 ∨ z ≠ 0 := by
      by_contra h
      simp only [not_or, not_not] at h
      obtain ⟨rfl, rfl⟩ := h
      have : x = 0 := by
        have : x ^ 3 = 0 := by linear_combination hon
        simpa using this
      exact hne (by rw [this])
    obtain ⟨A, hA⟩ := exists_rep he.odd he.nonsingular hon h0
    exact ⟨A, denotes_iff.2 ⟨x, y, z, rfl, hA⟩⟩

/-- C113, Weierstrass: a check of the form `S == K + X * m`, as in the verification of signatures, accepts everything if `X` has three zero
coordinates: all `S` and `K` of the curve and all nonzero `m`. -/
theorem _root_.Redox.Props.C113_weierstrass_check (he : WCurve p e) (hr : Big.bits e.r < usizeMod) (S K : Point)
    (hS : S.e = e ∧ Canon p S.c.x ∧ Canon p S.c.y ∧ Canon p S.c.z) (hK : K.e = e ∧ Canon p K.c.x ∧ Canon p K.c.y ∧ Canon p K.c.z)
    (prof : Profile) (m : Scalar) (hm : CanonScalar e.r m) (h0 : m.k ≠ 0) :
    (do S.eq (← K.add (← (wNone p e).mul prof m))) = R.ok true := by
  obtain ⟨x, y, z, rfl⟩ := w_cases p e hS.1 hS.2.1 hS.2.2.1 hS.2.2.2
  obtain ⟨x', y', z', rfl⟩ := w_cases p e hK.1 hK.2.1 hK.2.2.1 hK.2.2.2
  simp only [wNone_eq, w_mul_none p e he hr prof m hm h0, (w_add_none p e he x' y' z').1, R.ok_bind, eq_pt]
  simp

end weier

section mont
open Montgomery MLink
variable (p : ℕ) [Fact p.Prime] (e : Curve)

/-- The value of the curve `e` over GF(p) all of whose coordinates are zero. -/
def mNone : Point := ⟨e, ⟨⟨0, ⟨p⟩⟩, ⟨0, ⟨p⟩⟩, ⟨0, ⟨p⟩⟩⟩⟩

theorem mNone_eq : mNone p e = pt e (0 : ZMod p) 0 0 := by simp [mNone, pt, el]

theorem m_cases {P : Point} (he : P.e = e) (hx : Canon p P.c.x) (hy : Canon p P.c.y) (hz : Canon p P.c.z) :
    ∃ x y z : ZMod p, P = pt e x y z := by
  obtain ⟨e', ⟨x, y, z⟩⟩ := P
  simp only at he hx hy hz
  subst he
  exact ⟨val p x, val p y, val p z, by simp only [pt, ← hx.eq_el, ← hy.eq_el, ← hz.eq_el]⟩

theorem m_add_none (he : MCurve p e) (x y z : ZMod p) :
    (pt e x y z).add (pt e (0 : ZMod p) 0 0) = R.ok (pt e (0 : ZMod p) 0 0) ∧
    (pt e (0 : ZMod p) 0 0).add (pt e x y z) = R.ok (pt e (0 : ZMod p) 0 0) := by
  constructor
  · have hb : ((pt e x y z).e == (pt e (0 : ZMod p) 0 0).e) = true := by simp [pt]
    rw [Point.add, hb, doIfEq_true, Point.coreAdd, coreAddCoords_pt (ea he) (es he), R.ok_bind]
    change e.newProyPoint _ = _
    rw [newProyPoint_pt (ea he) (eb he)]
    simp [Mont.X3, Mont.Y3, Mont.Z3, Mont.rr, Mont.tt, Mont.vv, Mont.ss, Mont.uu, Mont.ww]
  · have hb : ((pt e (0 : ZMod p) 0 0).e == (pt e x y z).e) = true := by simp [pt]
    rw [Point.add, hb, doIfEq_true, Point.coreAdd, coreAddCoords_pt (ea he) (es he), R.ok_bind]
    change e.newProyPoint _ = _
    rw [newProyPoint_pt (ea he) (eb he)]
    simp [Mont.X3, Mont.Y3, Mont.Z3, Mont.rr, Mont.tt, Mont.vv, Mont.ss, Mont.uu, Mont.ww]

theorem m_loop_none (he : MCurve p e) : ∀ l, (pt e (0 : ZMod p) 0 0).mulLoop l (pt e (0 : ZMod p) 0 0) = R.ok (pt e (0 : ZMod p) 0 0) := by
  intro l
  induction l with
  | nil => rfl
  | cons b l ih =>
    rw [Point.mulLoop, (m_add_none p e he 0 0 0).1, R.ok_bind]
    cases b
    · simpa using ih
    · simpa [(m_add_none p e he 0 0 0).1] using ih

theorem m_mul_none (he : MCurve p e) (hr : Big.bits e.r < usizeMod) (prof : Profile) (k : Scalar) (hk : CanonScalar e.r k) (h0 : k.k ≠ 0) :
    (pt e (0 : ZMod p) 0 0).mul prof k = R.ok (pt e (0 : ZMod p) 0 0) := by
  obtain ⟨k, r⟩ := k
  obtain ⟨rfl, hk0, hk1⟩ := hk
  lift k to ℕ using hk0
  simp only [Nat.cast_lt] at hk1
  have hk : k ≠ 0 := by simpa using h0
  have hb : Big.bits k < usizeMod := lt_of_le_of_lt (Big.bits_mono (by omega)) hr
  have e1 : (pt e (0 : ZMod p) 0 0).e = e := rfl
  have hd : (pt e (0 : ZMod p) 1 0).add (pt e (0 : ZMod p) 1 0) = R.ok (pt e (0 : ZMod p) (-1) 0) := by
    have hb : ((pt e (0 : ZMod p) 1 0).e == (pt e (0 : ZMod p) 1 0).e) = true := by simp [pt]
    rw [Point.add, hb, doIfEq_true, Point.coreAdd, coreAddCoords_pt (ea he) (es he), R.ok_bind]
    change e.newProyPoint _ = _
    rw [newProyPoint_pt (ea he) (eb he)]
    simp [Mont.X3, Mont.Y3, Mont.Z3, Mont.rr, Mont.tt, Mont.vv, Mont.ss, Mont.uu, Mont.ww]
  rw [Point.mul, e1, beq_self_eq_true, doIfEq_true, Point.coreMul, e1, identity_pt he, R.ok_bind, iterLR_eq prof _ hk hb, R.ok_bind,
    bitsDown_top hk, Point.mulLoop, hd, R.ok_bind]
  simp only [if_true, (m_add_none p e he 0 (-1) 0).1, R.ok_bind]
  exact m_loop_none p e he _

/-- C113, Montgomery, any coefficient `b`. Let `O` have three zero coordinates. Sums, differences and products with `O` are `O` again, whatever
the other operand (any value that passes the check of the curve) and whatever the nonzero scalar; `==` with `O` is true; `is_zero` is false; and
`O` is encoded like the point at infinity. On curves with `b = 1` every other value that passes the check of the curve stands for a point. -/
theorem _root_.Redox.Props.C113_montgomery (he : MCurve p e) (Q : Point) (hQ : Q.e = e) (hx : Canon p Q.c.x) (hy : Canon p Q.c.y)
    (hz : Canon p Q.c.z) (hon : e.isOnCurve Q = R.ok true) :
    let O := mNone p e
    e.isOnCurve O = R.ok true ∧ O.add Q = R.ok O ∧ Q.add O = R.ok O ∧ O.sub Q = R.ok O ∧ Q.sub O = R.ok O ∧ O.neg = R.ok O ∧
    O.eq Q = R.ok true ∧ Q.eq O = R.ok true ∧ O.isZero = false ∧
    (Big.bits e.r < usizeMod → ∀ prof k, CanonScalar e.r k → k.k ≠ 0 → O.mul prof k = R.ok O) ∧
    (∀ c, O.encode c = do (← e.identity).encode c) ∧
    (val p e.b = 1 → Q ≠ O → ∃ A, MDenotes p e Q A) := by
  intro O
  obtain ⟨x, y, z, rfl⟩ := m_cases p e hQ hx hy hz
  have hO : O = pt e (0 : ZMod p) 0 0 := mNone_eq p e
  rw [hO]
  have hn : ∀ x y z : ZMod p, val p e.b * y ^ 2 * z = x * (x ^ 2 + val p e.a * x * z + z ^ 2) →
      (pt e x y z).neg = R.ok (pt e x (-y) z) := by
    intro x y z h
    have := newProyPoint_pt (ea he) (eb he) x (-y) z
    rw [if_pos (by linear_combination h)] at this
    simp only [Point.neg, pt, neg_el, R.ok_bind] at this ⊢
    exact this
  rw [isOnCurve_pt (ea he) (eb he), R.ok.injEq, decide_eq_true_eq] at hon
  have hn0 := hn 0 0 0 (by ring)
  rw [neg_zero] at hn0
  refine ⟨?_, (m_add_none p e he x y z).2, (m_add_none p e he x y z).1, ?_, ?_, hn0, ?_, ?_, ?_, m_mul_none p e he, ?_, ?_⟩
  · rw [isOnCurve_pt (ea he) (eb he)]; simp
  · rw [Point.sub, hn _ _ _ hon, R.ok_bind]; exact (m_add_none p e he x (-y) z).2
  · rw [Point.sub, hn0, R.ok_bind]; exact (m_add_none p e he x y z).1
  · rw [eq_pt]; simp
  · rw [eq_pt]; simp
  · rw [isZero_pt]; simp
  · intro c
    rw [identity_pt he, R.ok_bind, Mo.encode_pt he, Mo.encode_pt he]
    simp
  · intro hb1 hne
    rw [hb1] at hon
    have h0 : y ≠ 0 ∨ z ≠ 0 := by
      by_contra h
      simp only [not_or, not_not] at h
      obtain ⟨rfl, rfl⟩ := h
      have : x = 0 := by
        have : x ^ 3 = 0 := by linear_combination -hon
        simpa using this
      exact hne (by rw [this])
    obtain ⟨A, hA⟩ := exists_rep he.odd (ea_ne he) hon h0
    exact ⟨A, denotes_iff.2 ⟨x, y, z, rfl, hA⟩⟩

/-- C113, Montgomery: a check of the form `S == K + X * m` accepts everything if `X` has three zero coordinates. -/
theorem _root_.Redox.Props.C113_montgomery_check (he : MCurve p e) (hr : Big.bits e.r < usizeMod) (S K : Point)
    (hS : S.e = e ∧ Canon p S.c.x ∧ Canon p S.c.y ∧ Canon p S.c.z) (hK : K.e = e ∧ Canon p K.c.x ∧ Canon p K.c.y ∧ Canon p K.c.z)
    (prof : Profile) (m : Scalar) (hm : CanonScalar e.r m) (h0 : m.k ≠ 0) :
    (do S.eq (← K.add (← (mNone p e).mul prof m))) = R.ok true := by
  obtain ⟨x, y, z, rfl⟩ := m_cases p e hS.1 hS.2.1 hS.2.2.1 hS.2.2.2
  obtain ⟨x', y', z', rfl⟩ := m_cases p e hK.1 hK.2.1 hK.2.2.1 hK.2.2.2
  simp only [mNone_eq, m_mul_none p e he hr prof m hm h0, (m_add_none p e he x' y' z').1, R.ok_bind, eq_pt]
  simp

end mont

section edw
open Edwards ELink
variable (p : ℕ) [Fact p.Prime] (e : Curve)

/-- The value of the curve `e` over GF(p) all of whose coordinates are zero. -/
def eNone : Point := ⟨e, ⟨⟨0, ⟨p⟩⟩, ⟨0, ⟨p⟩⟩, ⟨0, ⟨p⟩⟩, ⟨0, ⟨p⟩⟩⟩⟩

theorem eNone_eq : eNone p e = pt e (0 : ZMod p) 0 0 0 := by simp [eNone, pt, el]

theorem e_cases {P : Point} (he : P.e = e) (hx : Canon p P.c.x) (hy : Canon p P.c.y) (ht : Canon p P.c.t) (hz : Canon p P.c.z) :
    ∃ x y t z : ZMod p, P = pt e x y t z := by
  obtain ⟨e', ⟨x, y, t, z⟩⟩ := P
  simp only at he hx hy ht hz
  subst he
  exact ⟨val p x, val p y, val p t, val p z, by simp only [pt, ← hx.eq_el, ← hy.eq_el, ← hz.eq_el, ← ht.eq_el]⟩

theorem e_add_none (he : EParams p e) (x y t z : ZMod p) :
    (pt e x y t z).add (pt e (0 : ZMod p) 0 0 0) = R.ok (pt e (0 : ZMod p) 0 0 0) ∧
    (pt e (0 : ZMod p) 0 0 0).add (pt e x y t z) = R.ok (pt e (0 : ZMod p) 0 0 0) := by
  constructor
  · have hb : ((pt e x y t z).e == (pt e (0 : ZMod p) 0 0 0).e) = true := by simp [pt]
    rw [Point.add, hb, doIfEq_true, Point.coreAdd, coreAddCoords_pt (ea he) (ed he), R.ok_bind]
    change e.newProyPoint _ = _
    rw [newProyPoint_pt (ea he) (ed he)]
    simp [OnCurve]
  · have hb : ((pt e (0 : ZMod p) 0 0 0).e == (pt e x y t z).e) = true := by simp [pt]
    rw [Point.add, hb, doIfEq_true, Point.coreAdd, coreAddCoords_pt (ea he) (ed he), R.ok_bind]
    change e.newProyPoint _ = _
    rw [newProyPoint_pt (ea he) (ed he)]
    simp [OnCurve]

theorem e_loop_none (he : EParams p e) :
    ∀ l, (pt e (0 : ZMod p) 0 0 0).mulLoop l (pt e (0 : ZMod p) 0 0 0) = R.ok (pt e (0 : ZMod p) 0 0 0) := by
  intro l
  induction l with
  | nil => rfl
  | cons b l ih =>
    rw [Point.mulLoop, (e_add_none p e he 0 0 0 0).1, R.ok_bind]
    cases b
    · simpa using ih
    · simpa [(e_add_none p e he 0 0 0 0).1] using ih

theorem e_mul_none (he : EParams p e) (hr : Big.bits e.r < usizeMod) (prof : Profile) (k : Scalar) (hk : CanonScalar e.r k) (h0 : k.k ≠ 0) :
    (pt e (0 : ZMod p) 0 0 0).mul prof k = R.ok (pt e (0 : ZMod p) 0 0 0) := by
  obtain ⟨k, r⟩ := k
  obtain ⟨rfl, hk0, hk1⟩ := hk
  lift k to ℕ using hk0
  simp only [Nat.cast_lt] at hk1
  have hk : k ≠ 0 := by simpa using h0
  have hb : Big.bits k < usizeMod := lt_of_le_of_lt (Big.bits_mono (by omega)) hr
  have e1 : (pt e (0 : ZMod p) 0 0 0).e = e := rfl
  have hd : (pt e (0 : ZMod p) 1 0 1).add (pt e (0 : ZMod p) 1 0 1) = R.ok (pt e (0 : ZMod p) 1 0 1) := by
    have hb : ((pt e (0 : ZMod p) 1 0 1).e == (pt e (0 : ZMod p) 1 0 1).e) = true := by simp [pt]
    rw [Point.add, hb, doIfEq_true, Point.coreAdd, coreAddCoords_pt (ea he) (ed he), R.ok_bind]
    change e.newProyPoint _ = _
    rw [newProyPoint_pt (ea he) (ed he)]
    simp [OnCurve]
  rw [Point.mul, e1, beq_self_eq_true, doIfEq_true, Point.coreMul, e1, identity_pt he, R.ok_bind, iterLR_eq prof _ hk hb, R.ok_bind,
    bitsDown_top hk, Point.mulLoop, hd, R.ok_bind]
  simp only [if_true, (e_add_none p e he 0 1 0 1).1, R.ok_bind]
  exact e_loop_none p e he _

/-- C113, Edwards, all coefficients. Let `O` have four zero coordinates. Sums, differences and products with `O` are `O` again, whatever the
other operand (any value that passes the check of the curve) and whatever the nonzero scalar; `==` with `O` is true; `is_zero` is false; and
`O` is encoded like the points with `y = 0` and even `x`, by zero bytes. On complete curves every other value that passes the check of
the curve stands for a point. -/
theorem _root_.Redox.Props.C113_edwards (he : EParams p e) (Q : Point) (hQ : Q.e = e) (hx : Canon p Q.c.x) (hy : Canon p Q.c.y)
    (ht : Canon p Q.c.t) (hz : Canon p Q.c.z) (hon : e.isOnCurve Q = R.ok true) :
    let O := eNone p e
    e.isOnCurve O = R.ok true ∧ O.add Q = R.ok O ∧ Q.add O = R.ok O ∧ O.sub Q = R.ok O ∧ Q.sub O = R.ok O ∧ O.neg = R.ok O ∧
    O.eq Q = R.ok true ∧ Q.eq O = R.ok true ∧ O.isZero = false ∧
    (Big.bits e.r < usizeMod → ∀ prof k, CanonScalar e.r k → k.k ≠ 0 → O.mul prof k = R.ok O) ∧
    (∀ c, O.encode c = R.ok (List.replicate ((Big.bits p + 8) / 8) 0)) ∧
    (ECurve p e → Q ≠ O → ∃ A, EDenotes p e Q A) := by
  intro O
  obtain ⟨x, y, t, z, rfl⟩ := e_cases p e hQ hx hy ht hz
  have hO : O = pt e (0 : ZMod p) 0 0 0 := eNone_eq p e
  rw [hO]
  have hn : ∀ x y t z : ZMod p, OnCurve (val p e.a) (val p e.d) x y t z → (pt e x y t z).neg = R.ok (pt e (-x) y (-t) z) := by
    intro x y t z h
    have := newProyPoint_pt (ea he) (ed he) (-x) y (-t) z
    rw [if_pos ⟨by linear_combination h.1, by linear_combination -h.2⟩] at this
    simp only [Point.neg, pt, neg_el, R.ok_bind] at this ⊢
    exact this
  rw [isOnCurve_pt (ea he) (ed he), R.ok.injEq, decide_eq_true_eq] at hon
  have hn0 := hn 0 0 0 0 ⟨by ring, by ring⟩
  rw [neg_zero] at hn0
  refine ⟨?_, (e_add_none p e he x y t z).2, (e_add_none p e he x y t z).1, ?_, ?_, hn0, ?_, ?_, ?_, e_mul_none p e he, ?_, ?_⟩
  · rw [isOnCurve_pt (ea he) (ed he)]; simp [OnCurve]
  · rw [Point.sub, hn _ _ _ _ hon, R.ok_bind]; exact (e_add_none p e he (-x) y (-t) z).2
  · rw [Point.sub, hn0, R.ok_bind]; exact (e_add_none p e he x y t z).1
  · rw [eq_pt]; simp
  · rw [eq_pt]; simp
  · rw [isZero_pt]; simp
  · intro c
    obtain ⟨xs, b, h, hl, hv, hs⟩ := ELink.encode_pt he (0 : ZMod p) 0 0 0 c
    rw [h, R.ok.injEq]
    rw [zero_mul, ZMod.val_zero] at hv
    rw [zero_mul, par, ZMod.val_zero] at hs
    have hb : b.toNat = 0 := by
      have h1 : 256 ^ xs.length * (b.toNat % 128) = 0 := by omega
      have h2 : b.toNat % 128 = 0 := by
        rcases mul_eq_zero.1 h1 with h | h
        · exact absurd h (by positivity)
        · exact h
      omega
    apply Big.fromBytesLE_inj
    · simp only [List.length_append, List.length_singleton, List.length_replicate]
      exact hl
    · rw [Big.fromBytesLE_replicate_zero, Big.fromBytesLE_append]
      have h1 : Big.fromBytesLE xs = 0 := by omega
      rw [h1]
      simp [Big.fromBytesLE, hb]
  · intro hE hne
    by_cases hz : z = 0
    · exfalso
      subst hz
      obtain ⟨h1, h2⟩ := hon
      have hxy : x = 0 ∨ y = 0 := by
        rw [mul_zero] at h2
        exact mul_eq_zero.1 h2
      have ht0 : t = 0 := by
        by_contra ht
        rcases hxy with rfl | rfl
        · exact hE.d_nsq ⟨y / t, by field_simp; linear_combination -h1⟩
        · obtain ⟨c, hc⟩ := hE.a_sq
          exact hE.d_nsq ⟨c * x / t, by field_simp; rw [hc] at h1; linear_combination -h1⟩
      subst ht0
      rcases hxy with rfl | rfl
      · have : y = 0 := by
          have : y ^ 2 = 0 := by linear_combination h1
          simpa using this
        exact hne (by rw [this])
      · have : x = 0 := by
          have : val p e.a * x ^ 2 = 0 := by linear_combination h1
          simpa [hE.a_ne] using this
        exact hne (by rw [this])
    · obtain ⟨A, hA⟩ := exists_rep hon hz
      exact ⟨A, denotes_iff.2 ⟨x, y, t, z, rfl, hA⟩⟩

/-- C113, Edwards: a check of the form `S == K + X * m` accepts everything if `X` has four zero coordinates. -/
theorem _root_.Redox.Props.C113_edwards_check (he : EParams p e) (hr : Big.bits e.r < usizeMod) (S K : Point)
    (hS : S.e = e ∧ Canon p S.c.x ∧ Canon p S.c.y ∧ Canon p S.c.t ∧ Canon p S.c.z)
    (hK : K.e = e ∧ Canon p K.c.x ∧ Canon p K.c.y ∧ Canon p K.c.t ∧ Canon p K.c.z)
    (prof : Profile) (m : Scalar) (hm : CanonScalar e.r m) (h0 : m.k ≠ 0) :
    (do S.eq (← K.add (← (eNone p e).mul prof m))) = R.ok true := by
  obtain ⟨x, y, t, z, rfl⟩ := e_cases p e hS.1 hS.2.1 hS.2.2.1 hS.2.2.2.1 hS.2.2.2.2
  obtain ⟨x', y', t', z', rfl⟩ := e_cases p e hK.1 hK.2.1 hK.2.2.1 hK.2.2.2.1 hK.2.2.2.2
  simp only [eNone_eq, e_mul_none p e he hr prof m hm h0, (e_add_none p e he x' y' t' z').1, R.ok_bind, eq_pt]
  simp

end edw

/-- C113: hashing to `EDWARDS448`. If one of the two inputs is 0, 1 or -1, the sum of the images times the cofactor is the value with four zero
coordinates, whatever the other input. -/
theorem _root_.Redox.Props.C113_hash448 : ∃ map, map448 = R.ok map ∧
    ∀ (prof : Profile) (u0 u1 : FpElt), Canon curve448_p u0 → Canon curve448_p u1 →
      (val curve448_p u0 = 0 ∨ val curve448_p u0 = 1 ∨ val curve448_p u0 = -1 ∨
        val curve448_p u1 = 0 ∨ val curve448_p u1 = 1 ∨ val curve448_p u1 = -1) →
      eHash prof edwards448 map u0 u1 = R.ok (eNone curve448_p edwards448) := by
  obtain ⟨M, hM, hreg⟩ := C44_edwards448_partial
  have lift : ∀ {x : R Edwards.Ell2} {M : Edwards.Ell2}, x = R.ok M → (do return (← x).map) = R.ok M.map := by
    rintro _ M rfl; rfl
  have hmap : map448 = R.ok M.map := by
    have := lift hM; unfold map448; simpa only [bind_assoc] using this
  refine ⟨M.map, hmap, ?_⟩
  have hexc : ∀ u, Canon curve448_p u → (val curve448_p u = 0 ∨ val curve448_p u = 1 ∨ val curve448_p u = -1) →
      M.map u = R.ok (eNone curve448_p edwards448) := by
    intro u hu h
    have hu' : u = ⟨0, ⟨curve448_p⟩⟩ ∨ u = ⟨1, ⟨curve448_p⟩⟩ ∨ u = ⟨curve448_p - 1, ⟨curve448_p⟩⟩ := by
      have e1 := hu.eq_el
      rcases h with h | h | h
      · left; rw [e1, h]; decide +kernel
      · right; left; rw [e1, h]; decide +kernel
      · right; right; rw [e1, h]; decide +kernel
    have hall : ∀ u : FpElt, (u = ⟨0, ⟨curve448_p⟩⟩ ∨ u = ⟨1, ⟨curve448_p⟩⟩ ∨ u = ⟨curve448_p - 1, ⟨curve448_p⟩⟩) →
        (do let e ← EDWARDS448
            let r ← edwards448_to_curve448
            (← Edwards.Ell2.new e (← e.getField.fromPrim (-1)) (some r.toRationalMap)).map u) = R.ok (eNone curve448_p edwards448) := by
      rintro u (rfl | rfl | rfl) <;> decide +kernel
    have h := hall u hu'
    have lift' : ∀ {x : R Edwards.Ell2}, x = R.ok M → (do (← x).map u) = M.map u := by
      rintro _ rfl; rfl
    have e2 := lift' hM
    simp only [bind_assoc] at e2
    rw [← e2]
    exact h
  have hany : ∀ u, Canon curve448_p u → ∃ x y t z : ZMod curve448_p, M.map u = R.ok (ELink.pt edwards448 x y t z) := by
    intro u hu
    by_cases h : val curve448_p u = 0 ∨ val curve448_p u = 1 ∨ val curve448_p u = -1
    · exact ⟨0, 0, 0, 0, by rw [hexc u hu h, eNone_eq]⟩
    · simp only [not_or] at h
      obtain ⟨A, y, hn, -, -, P, hP, dP⟩ := hreg u hu h.1 h.2.1 h.2.2
      obtain ⟨x, y, t, z, rfl, -⟩ := ELink.denotes_iff.1 dP
      exact ⟨x, y, t, z, hP⟩
  have hp := edwards448_valid.curve.params
  intro prof u0 u1 hu0 hu1 h
  obtain ⟨x0, y0, t0, z0, h0⟩ := hany u0 hu0
  obtain ⟨x1, y1, t1, z1, h1⟩ := hany u1 hu1
  have hs : (do (← M.map u0).add (← M.map u1)) = R.ok (eNone curve448_p edwards448) := by
    rw [eNone_eq]
    by_cases h' : val curve448_p u0 = 0 ∨ val curve448_p u0 = 1 ∨ val curve448_p u0 = -1
    · rw [hexc u0 hu0 h', R.ok_bind, h1, R.ok_bind, eNone_eq]
      exact (e_add_none _ _ hp _ _ _ _).2
    · rw [h0, R.ok_bind, hexc u1 hu1 (by tauto), R.ok_bind, eNone_eq]
      exact (e_add_none _ _ hp _ _ _ _).1
  obtain ⟨S0, hS0, hs⟩ := R.bind_eq_ok.1 hs
  obtain ⟨S1, hS1, hs⟩ := R.bind_eq_ok.1 hs
  have hc : edwards448.newScalar edwards448.getCofactor = R.ok ⟨4, edwards448.r⟩ := by decide +kernel
  rw [eHash, hS0, R.ok_bind, hS1, R.ok_bind, hs, R.ok_bind, hc, R.ok_bind, eNone_eq]
  exact e_mul_none _ _ hp edwards448_valid.order_bits prof _ ⟨rfl, by norm_num, by decide +kernel⟩ (by norm_num)

/-- The value with four zero coordinates on `EDWARDS448` is encoded as 57 zero bytes, which `decode` accepts: they are the encoding of the
point of order four with `y = 0`. -/
theorem _root_.Redox.Props.C113_hash448_bytes : ∃ x T, edwards448.newPoint x ⟨0, ⟨curve448_p⟩⟩ = R.ok T ∧
    (∀ c, (eNone curve448_p edwards448).encode c = R.ok (List.replicate 57 0)) ∧
    edwards448.decode (List.replicate 57 0) = R.ok (.ok T) := by
  refine ⟨⟨curve448_p - 1, ⟨curve448_p⟩⟩, ⟨edwards448, ⟨⟨curve448_p - 1, ⟨curve448_p⟩⟩, ⟨0, ⟨curve448_p⟩⟩, ⟨0, ⟨curve448_p⟩⟩, ⟨1, ⟨curve448_p⟩⟩⟩⟩,
    by decide +kernel, fun c => ?_, by decide +kernel⟩
  cases c <;> decide +kernel

/-- The values are reached through the API: an addition on a Weierstrass curve, a multiplication on a Montgomery curve. The other operand is a
point, and the check accepts a wrong `S`. -/
example : (do (← toy7b.identity).add (← toy7b.newPoint ⟨0, ⟨7⟩⟩ ⟨0, ⟨7⟩⟩)) = R.ok (wNone 7 toy7b) ∧
    (do (← Mo.toyMs.getGenerator).mul .debug (← Mo.toyMs.newScalar 3)) = R.ok (mNone 7 Mo.toyMs) ∧
    MCurve 7 Mo.toyMs ∧ (∃ G, Mo.toyMs.getGenerator = R.ok G ∧ Mo.toyMs.isOnCurve G = R.ok true ∧ G ≠ mNone 7 Mo.toyMs ∧ CanonScalar Mo.toyMs.r ⟨5, 12⟩ ∧
      (do G.eq (← G.add (← (mNone 7 Mo.toyMs).mul .debug ⟨5, 12⟩))) = R.ok true ∧ (do G.eq (← G.add G)) = R.ok false) :=
  ⟨by decide +kernel, by decide +kernel, Mo.toyMs_curve, ⟨_, rfl, by decide +kernel, by decide +kernel, ⟨rfl, by decide, by decide⟩,
    by decide +kernel, by decide +kernel⟩⟩

/-- Hashing 0 and 2 to `EDWARDS448`. -/
example : Canon curve448_p ⟨0, ⟨curve448_p⟩⟩ ∧ Canon curve448_p ⟨2, ⟨curve448_p⟩⟩ ∧
    val curve448_p ⟨0, ⟨curve448_p⟩⟩ = 0 ∧ (do eHash .debug edwards448 (← map448) ⟨0, ⟨curve448_p⟩⟩ ⟨2, ⟨curve448_p⟩⟩) =
      R.ok (eNone curve448_p edwards448) :=
  ⟨⟨rfl, by decide +kernel, by decide +kernel⟩, ⟨rfl, by decide +kernel, by decide +kernel⟩, by simp [Spec.val], by decide +kernel⟩

end Redox.Props.Hollow
