import Verif.Spec.Expr
import Verif.Math.Count
import Verif.Instances.P256
import Verif.Instances.P384
import Verif.Instances.P521
import Verif.Instances.Secp256k1
import Verif.Instances.Secp256k1Iso3
import Verif.Instances.Bls12381g1
import Verif.Instances.Bls12381g1Iso11
import Verif.Instances.Curve25519
import Verif.Instances.Curve448
import Verif.Instances.Edwards25519
import Verif.Instances.Edwards448

/-! # Properties of the built-in curves (C49-C52) -/

namespace Redox.Props.Inst

open Redox.Spec Redox.Inst

/-! ## C49 -/

/-- The BLS parameter: the field size and the order are polynomials in it. -/
def blsX : ℕ := 0xd201000000010000
def blsR : ℕ := blsX ^ 4 - blsX ^ 2 + 1
/-- `(x - 1)² (x⁴ - x² + 1) / 3 + x` at `x = -blsX`. -/
def blsP : ℕ := (blsX + 1) ^ 2 * blsR / 3 - blsX

/-- The field sizes and orders, in closed form where there is one. -/
def weierstrassList : List (R Weierstrass.Curve × ℕ) :=
  [(P256, 2 ^ 256 - 2 ^ 224 + 2 ^ 192 + 2 ^ 96 - 1),
   (P384, 2 ^ 384 - 2 ^ 128 - 2 ^ 96 + 2 ^ 32 - 1),
   (P521, 2 ^ 521 - 1),
   (SECP256K1, 2 ^ 256 - 2 ^ 32 - 977),
   (SECP256K1_3ISO, 2 ^ 256 - 2 ^ 32 - 977),
   (BLS12381G1, blsP),
   (BLS12381G1_11ISO, blsP)]

theorem p256_p_eq : 2 ^ 256 - 2 ^ 224 + 2 ^ 192 + 2 ^ 96 - 1 = p256_p := by decide +kernel
theorem p384_p_eq : 2 ^ 384 - 2 ^ 128 - 2 ^ 96 + 2 ^ 32 - 1 = p384_p := by decide +kernel
theorem p521_p_eq : 2 ^ 521 - 1 = p521_p := by decide +kernel
theorem secp256k1_p_eq : 2 ^ 256 - 2 ^ 32 - 977 = secp256k1_p := by decide +kernel
theorem bls_p_eq : blsP = bls12381g1_p := by decide +kernel
theorem c25519_p_eq : 2 ^ 255 - 19 = curve25519_p := by decide +kernel
theorem c448_p_eq : 2 ^ 448 - 2 ^ 224 - 1 = curve448_p := by decide +kernel

/-- C49, Weierstrass: each built-in curve is created without a panic over the field of the stated prime size, is
nonsingular, has no point of order two (so the addition formulas have no exceptions), has a prime order, and its generator
is on the curve with exactly that order. -/
theorem _root_.Redox.Props.C49_weierstrass : ∀ t ∈ weierstrassList, ∃ (_ : Fact t.2.Prime) (e : Weierstrass.Curve),
    t.1 = R.ok e ∧ WValid t.2 e := by
  rw [weierstrassList, p256_p_eq, p384_p_eq, p521_p_eq, secp256k1_p_eq, bls_p_eq]
  simp only [List.forall_mem_cons]
  exact ⟨⟨inferInstance, _, p256_eq, p256_valid⟩, ⟨inferInstance, _, p384_eq, p384_valid⟩,
    ⟨inferInstance, _, p521_eq, p521_valid⟩, ⟨inferInstance, _, secp256k1_eq, secp256k1_valid⟩,
    ⟨inferInstance, _, secp256k1_3iso_eq, secp256k1_3iso_valid⟩, ⟨inferInstance, _, bls12381g1_eq, bls12381g1_valid⟩,
    ⟨inferInstance, _, bls12381g1_11iso_eq, bls12381g1_11iso_valid⟩, by simp⟩

def montgomeryList : List (R Montgomery.Curve × ℕ) :=
  [(CURVE25519, 2 ^ 255 - 19), (CURVE448, 2 ^ 448 - 2 ^ 224 - 1)]

/-- C49, Montgomery: likewise, with `b = 1` and a constant `s` that is not the `y`-coordinate of a point. -/
theorem _root_.Redox.Props.C49_montgomery : ∀ t ∈ montgomeryList, ∃ (_ : Fact t.2.Prime) (e : Montgomery.Curve),
    t.1 = R.ok e ∧ MValid t.2 e := by
  rw [montgomeryList, c25519_p_eq, c448_p_eq]
  simp only [List.forall_mem_cons]
  exact ⟨⟨inferInstance, _, curve25519_eq, curve25519_valid⟩, ⟨inferInstance, _, curve448_eq, curve448_valid⟩, by simp⟩

def edwardsList : List (R Edwards.Curve × ℕ) :=
  [(EDWARDS25519, 2 ^ 255 - 19), (EDWARDS448, 2 ^ 448 - 2 ^ 224 - 1)]

/-- C49, Edwards: likewise, with `a` a nonzero square and `d` not a square. -/
theorem _root_.Redox.Props.C49_edwards : ∀ t ∈ edwardsList, ∃ (_ : Fact t.2.Prime) (e : Edwards.Curve),
    t.1 = R.ok e ∧ EValid t.2 e := by
  rw [edwardsList, c25519_p_eq, c448_p_eq]
  simp only [List.forall_mem_cons]
  exact ⟨⟨inferInstance, _, edwards25519_eq, edwards25519_valid⟩, ⟨inferInstance, _, edwards448_eq, edwards448_valid⟩,
    by simp⟩

/-! ## C50 -/

def primeOrderList : List (R Weierstrass.Curve × ℕ) := weierstrassList.take 5

theorem card_of_valid {p : ℕ} [Fact p.Prime] {e : Weierstrass.Curve} (h : WValid p e) (hb : 2 * p + 1 < 3 * e.r) :
    Nat.card (wGroup p e).Point = e.r := by
  obtain ⟨-, A, -, -, hA⟩ := h.generator
  exact Count.card_eq h.curve.odd (wGroup p e) rfl rfl hA h.complete hb

/-- C50. On the five curves with cofactor one, `get_order()` is the number of points; it kills every point; every point
other than the identity generates the whole group; and `P * new_scalar(k)` is `k P` for every point and every integer `k`
(for multiples of the order: in the release profile). -/
theorem _root_.Redox.Props.C50_prime_order : ∀ t ∈ primeOrderList, ∃ (_ : Fact t.2.Prime) (e : Weierstrass.Curve),
    t.1 = R.ok e ∧ WValid t.2 e ∧ Nat.card (wGroup t.2 e).Point = e.getOrder ∧ (∀ A : (wGroup t.2 e).Point, e.getOrder • A = 0) ∧
    (∀ A B : (wGroup t.2 e).Point, A ≠ 0 → ∃ k : ℤ, B = k • A) ∧
    ∀ (prof : Profile) (P : Weierstrass.Point) (A : (wGroup t.2 e).Point) (k : ℤ), WDenotes t.2 e P A →
      ¬ (e.getOrder : ℤ) ∣ k ∨ prof = .release → WReturns t.2 e (do P.mul prof (← e.newScalar k)) (k • A) := by
  have key : ∀ (c : R Weierstrass.Curve) (p : ℕ) [Fact p.Prime] (e : Weierstrass.Curve), c = R.ok e → WValid p e →
      2 * p + 1 < 3 * e.r →
      ∃ (_ : Fact p.Prime) (e : Weierstrass.Curve),
    c = R.ok e ∧ WValid p e ∧ Nat.card (wGroup p e).Point = e.r ∧ (∀ A : (wGroup p e).Point, e.r • A = 0) ∧
    (∀ A B : (wGroup p e).Point, A ≠ 0 → ∃ k : ℤ, B = k • A) ∧
    ∀ (prof : Profile) (P : Weierstrass.Point) (A : (wGroup p e).Point) (k : ℤ), WDenotes p e P A →
      ¬ (e.r : ℤ) ∣ k ∨ prof = .release → WReturns p e (do P.mul prof (← e.newScalar k)) (k • A) := by
    intro c p _ e hc hv hb
    have hcard := card_of_valid hv hb
    have hkill : ∀ A : (wGroup p e).Point, e.r • A = 0 := fun A => by rw [← hcard]; exact card_nsmul_eq_zero'
    refine ⟨inferInstance, e, hc, hv, hcard, hkill, ?_, ?_⟩
    · intro A B hA
      haveI : Fact e.r.Prime := ⟨hv.order_prime⟩
      have := mem_zmultiples_of_prime_card (G := (wGroup p e).Point) hcard hA (g' := B)
      obtain ⟨k, hk⟩ := AddSubgroup.mem_zmultiples_iff.1 this
      exact ⟨k, hk.symm⟩
    · intro prof P A k hP h0
      exact C26_integer p e hv.curve hv.complete hv.order_bits hv.order_prime.one_le prof P A hP (hkill A) k h0
  rw [primeOrderList, weierstrassList, p256_p_eq, p384_p_eq, p521_p_eq, secp256k1_p_eq, bls_p_eq]
  simp only [List.take, List.forall_mem_cons]
  exact ⟨key _ _ _ p256_eq p256_valid (by decide +kernel),
    key _ _ _ p384_eq p384_valid (by decide +kernel),
    key _ _ _ p521_eq p521_valid (by decide +kernel),
    key _ _ _ secp256k1_eq secp256k1_valid (by decide +kernel),
    key _ _ _ secp256k1_3iso_eq secp256k1_3iso_valid (by decide +kernel), by simp⟩

/-! ## C51 -/

theorem smul_eq_iff {G : Type*} [AddCommGroup G] {A : G} {r : ℕ} (h : addOrderOf A = r) (k1 k2 : ℤ) :
    k1 • A = k2 • A ↔ (r : ℤ) ∣ k1 - k2 := by
  rw [← sub_eq_zero, ← sub_smul, ← addOrderOf_dvd_iff_zsmul_eq_zero, h]

section
variable (p : ℕ) [Fact p.Prime]

/-- C51, Weierstrass: for any integers, `G * new_scalar(k1) == G * new_scalar(k2)` exactly when the order divides
`k1 - k2`. -/
theorem _root_.Redox.Props.C51_weierstrass (e : Weierstrass.Curve) (h : WValid p e) (prof : Profile) (k1 k2 : ℤ)
    (h0 : (¬ (e.getOrder : ℤ) ∣ k1 ∧ ¬ (e.getOrder : ℤ) ∣ k2) ∨ prof = .release) :
    (do let g ← e.getGenerator
        (← g.mul prof (← e.newScalar k1)).eq (← g.mul prof (← e.newScalar k2))) =
      R.ok (decide ((e.getOrder : ℤ) ∣ k1 - k2)) := by
  obtain ⟨G, A, hG, hd, hA⟩ := h.generator
  simp only [Weierstrass.Curve.getOrder] at h0 hA ⊢
  have hkill : e.r • A = 0 := by rw [← hA]; exact addOrderOf_nsmul_eq_zero A
  have m := fun k hk => C26_integer p e h.curve h.complete h.order_bits h.order_prime.one_le prof G A hd hkill k hk
  obtain ⟨S1, e1, d1⟩ := m k1 (by tauto)
  obtain ⟨S2, e2, d2⟩ := m k2 (by tauto)
  simp only [Weierstrass.Curve.newScalar, scalar_new_eq e.r h.order_prime.one_le, R.ok_bind] at e1 e2
  simp only [hG, Weierstrass.Curve.newScalar, scalar_new_eq e.r h.order_prime.one_le, R.ok_bind, e1, e2,
    C27_eq p e _ _ _ _ d1 d2, smul_eq_iff hA]
  rfl

/-- C51, Montgomery. -/
theorem _root_.Redox.Props.C51_montgomery (e : Montgomery.Curve) (h : MValid p e) (prof : Profile) (k1 k2 : ℤ)
    (h0 : (¬ (e.getOrder : ℤ) ∣ k1 ∧ ¬ (e.getOrder : ℤ) ∣ k2) ∨ prof = .release) :
    (do let g ← e.getGenerator
        (← g.mul prof (← e.newScalar k1)).eq (← g.mul prof (← e.newScalar k2))) =
      R.ok (decide ((e.getOrder : ℤ) ∣ k1 - k2)) := by
  obtain ⟨G, A, hG, hd, hA⟩ := h.generator
  simp only [Montgomery.Curve.getOrder] at h0 hA ⊢
  have hkill : e.r • A = 0 := by rw [← hA]; exact addOrderOf_nsmul_eq_zero A
  have m := fun k hk => C33_integer_partial p e h.curve h.b_one h.complete h.order_bits h.order_prime.one_le prof G A hd
    hkill k hk
  obtain ⟨S1, e1, d1⟩ := m k1 (by tauto)
  obtain ⟨S2, e2, d2⟩ := m k2 (by tauto)
  simp only [Montgomery.Curve.newScalar, scalar_new_eq e.r h.order_prime.one_le, R.ok_bind] at e1 e2
  simp only [hG, Montgomery.Curve.newScalar, scalar_new_eq e.r h.order_prime.one_le, R.ok_bind, e1, e2,
    (C32_eq p e _ _ _ _ d1 d2).1, smul_eq_iff hA]
  rfl

/-- C51, Edwards. -/
theorem _root_.Redox.Props.C51_edwards (e : Edwards.Curve) (h : EValid p e) (prof : Profile) (k1 k2 : ℤ)
    (h0 : (¬ (e.getOrder : ℤ) ∣ k1 ∧ ¬ (e.getOrder : ℤ) ∣ k2) ∨ prof = .release) :
    (do let g ← e.getGenerator
        (← g.mul prof (← e.newScalar k1)).eq (← g.mul prof (← e.newScalar k2))) =
      R.ok (decide ((e.getOrder : ℤ) ∣ k1 - k2)) := by
  haveI := h.curve
  obtain ⟨G, A, hG, hd, hA⟩ := h.generator
  simp only [Edwards.Curve.getOrder] at h0 hA ⊢
  have hkill : e.r • A = 0 := by rw [← hA]; exact addOrderOf_nsmul_eq_zero A
  have m := fun k hk => C37_integer_partial p e h.order_bits h.order_prime.one_le prof G A hd hkill k hk
  obtain ⟨S1, e1, d1⟩ := m k1 (by tauto)
  obtain ⟨S2, e2, d2⟩ := m k2 (by tauto)
  simp only [Edwards.Curve.newScalar, scalar_new_eq e.r h.order_prime.one_le, R.ok_bind] at e1 e2
  simp only [hG, Edwards.Curve.newScalar, scalar_new_eq e.r h.order_prime.one_le, R.ok_bind, e1, e2,
    C36_eq p e _ _ _ _ d1 d2, smul_eq_iff hA]
  rfl

/-! ## C52 -/

open Classical in
/-- The meaning of a pair of integer coordinates. -/
noncomputable def wPoint (e : Weierstrass.Curve) (x y : ℤ) : Option (wGroup p e).Point :=
  if h : (wGroup p e).Nonsingular x y then some (.some x y h) else none

open Classical in
noncomputable def mPoint (e : Montgomery.Curve) (x y : ℤ) : Option (mGroup p e).Point :=
  if h : (mGroup p e).Nonsingular x y then some (.some x y h) else none

open Classical in
noncomputable def ePoint (e : Edwards.Curve) (x y : ℤ) : Option (eGroup p e) :=
  if h : val p e.a * (x : ZMod p) ^ 2 + (y : ZMod p) ^ 2 = 1 + val p e.d * (x : ZMod p) ^ 2 * (y : ZMod p) ^ 2 then
    some ⟨x, y, h⟩ else none

/-- The outcome agrees with the value: a point that stands for it, or a panic if there is no value. -/
def WOutcome (e : Weierstrass.Curve) (r : R Weierstrass.Point) : Option (wGroup p e).Point → Prop
  | some A => WReturns p e r A
  | none => ∃ why, r = R.panic why

def MOutcome (e : Montgomery.Curve) (r : R Montgomery.Point) : Option (mGroup p e).Point → Prop
  | some A => MReturns p e r A
  | none => ∃ why, r = R.panic why

def EOutcome (e : Edwards.Curve) (r : R Edwards.Point) : Option (eGroup p e) → Prop
  | some A => EReturns p e r A
  | none => ∃ why, r = R.panic why

/-- C52, Weierstrass. On valid parameters, running any expression in the release profile (or in any profile, if no scalar is
a multiple of the order) returns the value of the expression in the group of the curve if all its coordinate pairs are on
the curve, and panics if one of them is not. -/
theorem _root_.Redox.Props.C52_weierstrass (e : Weierstrass.Curve) (h : WValid p e) (prof : Profile) (G : Weierstrass.Point)
    (g : (wGroup p e).Point) (hG : e.getGenerator = R.ok G) (hg : WDenotes p e G g) (t : PExpr)
    (h0 : t.NoZero e.r ∨ prof = .release) :
    WOutcome p e (t.runW prof e) (t.value e.r g (wPoint p e)) := by
  have law := fun P Q A B hP hQ => C23_group_law p e h.curve h.complete P Q A B hP hQ
  induction t with
  | identity => obtain ⟨I, hI, hId, -⟩ := C22_identity p e h.curve; exact ⟨I, hI, hId⟩
  | generator => exact ⟨G, hG, hg⟩
  | point x y =>
    have hn := C22_new_point p e h.curve (el (x : ZMod p)) (el (y : ZMod p)) (canon_el _) (canon_el _)
    have hrun : PExpr.runW prof e (.point x y) = e.newPoint (el (x : ZMod p)) (el (y : ZMod p)) := by
      simp only [PExpr.runW, h.curve.field, elt_eq, R.ok_bind]
    rw [hrun]
    simp only [PExpr.value, wPoint]
    by_cases hon : OnW p e (el (x : ZMod p)) (el (y : ZMod p))
    · obtain ⟨P, hP, -, -, -, hh, hd⟩ := hn.1 hon
      simp only [val_el] at hh hd
      rw [dif_pos hh]
      exact ⟨P, hP, hd⟩
    · rw [dif_neg]
      · exact ⟨_, hn.2 hon⟩
      · intro hh
        apply hon
        have := ((wGroup p e).equation_iff _ _).1 hh.1
        simp only [OnW, val_el]
        linear_combination this
  | add a b iha ihb =>
    have iha := iha (h0.imp_left And.left)
    have ihb := ihb (h0.imp_left And.right)
    simp only [PExpr.value, PExpr.runW]
    cases ha : a.value e.r g (wPoint p e) with
    | none => rw [ha] at iha; obtain ⟨w, hw⟩ := iha; exact ⟨w, by rw [hw]; rfl⟩
    | some A =>
      rw [ha] at iha; obtain ⟨P, hP, dP⟩ := iha
      cases hb : b.value e.r g (wPoint p e) with
      | none => rw [hb] at ihb; obtain ⟨w, hw⟩ := ihb; exact ⟨w, by rw [hw, hP]; rfl⟩
      | some B =>
        rw [hb] at ihb; obtain ⟨Q, hQ, dQ⟩ := ihb
        rw [hP, hQ]
        exact (law P Q A B dP dQ).1
  | sub a b iha ihb =>
    have iha := iha (h0.imp_left And.left)
    have ihb := ihb (h0.imp_left And.right)
    simp only [PExpr.value, PExpr.runW]
    cases ha : a.value e.r g (wPoint p e) with
    | none => rw [ha] at iha; obtain ⟨w, hw⟩ := iha; exact ⟨w, by rw [hw]; rfl⟩
    | some A =>
      rw [ha] at iha; obtain ⟨P, hP, dP⟩ := iha
      cases hb : b.value e.r g (wPoint p e) with
      | none => rw [hb] at ihb; obtain ⟨w, hw⟩ := ihb; exact ⟨w, by rw [hw, hP]; rfl⟩
      | some B =>
        rw [hb] at ihb; obtain ⟨Q, hQ, dQ⟩ := ihb
        rw [hP, hQ]
        exact (law P Q A B dP dQ).2.1
  | neg a iha =>
    have iha := iha h0
    simp only [PExpr.value, PExpr.runW]
    cases ha : a.value e.r g (wPoint p e) with
    | none => rw [ha] at iha; obtain ⟨w, hw⟩ := iha; exact ⟨w, by rw [hw]; rfl⟩
    | some A =>
      rw [ha] at iha; obtain ⟨P, hP, dP⟩ := iha
      rw [hP]
      exact (law P P A A dP dP).2.2
  | mul k a iha =>
    have iha := iha (h0.imp_left And.right)
    have hr1 : 1 ≤ e.r := h.order_prime.one_le
    simp only [PExpr.value, PExpr.runW, Weierstrass.Curve.newScalar, scalar_new_eq e.r hr1, R.ok_bind]
    cases ha : a.value e.r g (wPoint p e) with
    | none => rw [ha] at iha; obtain ⟨w, hw⟩ := iha; exact ⟨w, by rw [hw]; rfl⟩
    | some A =>
      rw [ha] at iha; obtain ⟨P, hP, dP⟩ := iha
      rw [hP]
      exact C25_mul_partial p e h.curve h.complete h.order_bits prof P A dP ⟨k % e.r, e.r⟩
        ⟨rfl, Int.emod_nonneg _ (by omega), Int.emod_lt_of_pos _ (by omega)⟩
        (h0.imp_left fun hz h => hz.1 (Int.dvd_of_emod_eq_zero h))

/-- C52, Montgomery. On valid parameters, running any expression in the release profile (or in any profile, if no scalar is
a multiple of the order) returns the value of the expression in the group of the curve if all its coordinate pairs are on
the curve, and panics if one of them is not. -/
theorem _root_.Redox.Props.C52_montgomery (e : Montgomery.Curve) (h : MValid p e) (prof : Profile) (G : Montgomery.Point)
    (g : (mGroup p e).Point) (hG : e.getGenerator = R.ok G) (hg : MDenotes p e G g) (t : PExpr)
    (h0 : t.NoZero e.r ∨ prof = .release) :
    MOutcome p e (t.runM prof e) (t.value e.r g (mPoint p e)) := by
  have law := fun P Q A B hP hQ => C32_group_law_partial p e h.curve h.b_one h.complete P Q A B hP hQ
  induction t with
  | identity => exact Mo.identity_denotes h.curve
  | generator => exact ⟨G, hG, hg⟩
  | point x y =>
    have hrun : PExpr.runM prof e (.point x y) = e.newPoint (el (x : ZMod p)) (el (y : ZMod p)) := by
      simp only [PExpr.runM, h.curve.field, elt_eq, R.ok_bind]
    rw [hrun]
    simp only [PExpr.value, mPoint]
    have hn := MLink.newPoint_pt h.curve (x : ZMod p) (y : ZMod p)
    by_cases hon : (mGroup p e).Nonsingular x y
    · rw [dif_pos hon]
      have he := ((mGroup p e).equation_iff _ _).1 hon.1
      simp only at he
      refine ⟨_, by rw [hn, if_pos (by rw [h.b_one]; linear_combination he)],
        MLink.denotes_iff.2 ⟨_, _, _, rfl, one_ne_zero, by ring, by ring⟩⟩
    · rw [dif_neg hon, hn, if_neg]
      · exact ⟨_, rfl⟩
      · intro he
        rw [h.b_one] at he
        obtain ⟨A, hA⟩ := MLink.exists_rep (x := (x : ZMod p)) (y := (y : ZMod p)) (z := 1) h.curve.odd
          (MLink.ea_ne h.curve) (by linear_combination he) (Or.inr one_ne_zero)
        rcases A with _ | ⟨u, v, huv⟩
        · exact one_ne_zero hA.2.2
        · obtain ⟨-, hu, hv⟩ := hA
          rw [mul_one] at hu hv
          rw [hu, hv] at hon
          exact hon huv
  | add a b iha ihb =>
    have iha := iha (h0.imp_left And.left)
    have ihb := ihb (h0.imp_left And.right)
    simp only [PExpr.value, PExpr.runM]
    cases ha : a.value e.r g (mPoint p e) with
    | none => rw [ha] at iha; obtain ⟨w, hw⟩ := iha; exact ⟨w, by rw [hw]; rfl⟩
    | some A =>
      rw [ha] at iha; obtain ⟨P, hP, dP⟩ := iha
      cases hb : b.value e.r g (mPoint p e) with
      | none => rw [hb] at ihb; obtain ⟨w, hw⟩ := ihb; exact ⟨w, by rw [hw, hP]; rfl⟩
      | some B =>
        rw [hb] at ihb; obtain ⟨Q, hQ, dQ⟩ := ihb
        rw [hP, hQ]
        exact (law P Q A B dP dQ).1
  | sub a b iha ihb =>
    have iha := iha (h0.imp_left And.left)
    have ihb := ihb (h0.imp_left And.right)
    simp only [PExpr.value, PExpr.runM]
    cases ha : a.value e.r g (mPoint p e) with
    | none => rw [ha] at iha; obtain ⟨w, hw⟩ := iha; exact ⟨w, by rw [hw]; rfl⟩
    | some A =>
      rw [ha] at iha; obtain ⟨P, hP, dP⟩ := iha
      cases hb : b.value e.r g (mPoint p e) with
      | none => rw [hb] at ihb; obtain ⟨w, hw⟩ := ihb; exact ⟨w, by rw [hw, hP]; rfl⟩
      | some B =>
        rw [hb] at ihb; obtain ⟨Q, hQ, dQ⟩ := ihb
        rw [hP, hQ]
        exact (law P Q A B dP dQ).2.1
  | neg a iha =>
    have iha := iha h0
    simp only [PExpr.value, PExpr.runM]
    cases ha : a.value e.r g (mPoint p e) with
    | none => rw [ha] at iha; obtain ⟨w, hw⟩ := iha; exact ⟨w, by rw [hw]; rfl⟩
    | some A =>
      rw [ha] at iha; obtain ⟨P, hP, dP⟩ := iha
      rw [hP]
      exact (law P P A A dP dP).2.2
  | mul k a iha =>
    have iha := iha (h0.imp_left And.right)
    have hr1 : 1 ≤ e.r := h.order_prime.one_le
    simp only [PExpr.value, PExpr.runM, Montgomery.Curve.newScalar, scalar_new_eq e.r hr1, R.ok_bind]
    cases ha : a.value e.r g (mPoint p e) with
    | none => rw [ha] at iha; obtain ⟨w, hw⟩ := iha; exact ⟨w, by rw [hw]; rfl⟩
    | some A =>
      rw [ha] at iha; obtain ⟨P, hP, dP⟩ := iha
      rw [hP]
      exact C33_mul_partial p e h.curve h.b_one h.complete h.order_bits prof P A dP ⟨k % e.r, e.r⟩
        ⟨rfl, Int.emod_nonneg _ (by omega), Int.emod_lt_of_pos _ (by omega)⟩
        (h0.imp_left fun hz h => hz.1 (Int.dvd_of_emod_eq_zero h))

/-- C52, Edwards. On valid parameters, running any expression in the release profile (or in any profile, if no scalar is
a multiple of the order) returns the value of the expression in the group of the curve if all its coordinate pairs are on
the curve, and panics if one of them is not. -/
theorem _root_.Redox.Props.C52_edwards (e : Edwards.Curve) (h : EValid p e) [ECurve p e] (prof : Profile) (G : Edwards.Point)
    (g : eGroup p e) (hG : e.getGenerator = R.ok G) (hg : EDenotes p e G g) (t : PExpr)
    (h0 : t.NoZero e.r ∨ prof = .release) :
    EOutcome p e (t.runE prof e) (t.value e.r g (ePoint p e)) := by
  have law := fun P Q A B hP hQ => C36_group_law p e P Q A B hP hQ
  induction t with
  | identity => exact (law G G g g hg hg).2.2.2
  | generator => exact ⟨G, hG, hg⟩
  | point x y =>
    have hrun : PExpr.runE prof e (.point x y) = e.newPoint (el (x : ZMod p)) (el (y : ZMod p)) := by
      simp only [PExpr.runE, h.curve.params.field, elt_eq, R.ok_bind]
    rw [hrun]
    simp only [PExpr.value, ePoint]
    have hn := ELink.newPoint_pt h.curve.params (x : ZMod p) (y : ZMod p)
    by_cases hon : val p e.a * (x : ZMod p) ^ 2 + (y : ZMod p) ^ 2 = 1 + val p e.d * (x : ZMod p) ^ 2 * (y : ZMod p) ^ 2
    · rw [dif_pos hon]
      exact ⟨_, by rw [hn, if_pos hon],
        ELink.denotes_iff.2 ⟨_, _, _, _, rfl, one_ne_zero, by ring, by ring, by ring⟩⟩
    · rw [dif_neg hon, hn, if_neg hon]
      exact ⟨_, rfl⟩
  | add a b iha ihb =>
    have iha := iha (h0.imp_left And.left)
    have ihb := ihb (h0.imp_left And.right)
    simp only [PExpr.value, PExpr.runE]
    cases ha : a.value e.r g (ePoint p e) with
    | none => rw [ha] at iha; obtain ⟨w, hw⟩ := iha; exact ⟨w, by rw [hw]; rfl⟩
    | some A =>
      rw [ha] at iha; obtain ⟨P, hP, dP⟩ := iha
      cases hb : b.value e.r g (ePoint p e) with
      | none => rw [hb] at ihb; obtain ⟨w, hw⟩ := ihb; exact ⟨w, by rw [hw, hP]; rfl⟩
      | some B =>
        rw [hb] at ihb; obtain ⟨Q, hQ, dQ⟩ := ihb
        rw [hP, hQ]
        exact (law P Q A B dP dQ).1
  | sub a b iha ihb =>
    have iha := iha (h0.imp_left And.left)
    have ihb := ihb (h0.imp_left And.right)
    simp only [PExpr.value, PExpr.runE]
    cases ha : a.value e.r g (ePoint p e) with
    | none => rw [ha] at iha; obtain ⟨w, hw⟩ := iha; exact ⟨w, by rw [hw]; rfl⟩
    | some A =>
      rw [ha] at iha; obtain ⟨P, hP, dP⟩ := iha
      cases hb : b.value e.r g (ePoint p e) with
      | none => rw [hb] at ihb; obtain ⟨w, hw⟩ := ihb; exact ⟨w, by rw [hw, hP]; rfl⟩
      | some B =>
        rw [hb] at ihb; obtain ⟨Q, hQ, dQ⟩ := ihb
        rw [hP, hQ]
        exact (law P Q A B dP dQ).2.1
  | neg a iha =>
    have iha := iha h0
    simp only [PExpr.value, PExpr.runE]
    cases ha : a.value e.r g (ePoint p e) with
    | none => rw [ha] at iha; obtain ⟨w, hw⟩ := iha; exact ⟨w, by rw [hw]; rfl⟩
    | some A =>
      rw [ha] at iha; obtain ⟨P, hP, dP⟩ := iha
      rw [hP]
      exact (law P P A A dP dP).2.2.1
  | mul k a iha =>
    have iha := iha (h0.imp_left And.right)
    have hr1 : 1 ≤ e.r := h.order_prime.one_le
    simp only [PExpr.value, PExpr.runE, Edwards.Curve.newScalar, scalar_new_eq e.r hr1, R.ok_bind]
    cases ha : a.value e.r g (ePoint p e) with
    | none => rw [ha] at iha; obtain ⟨w, hw⟩ := iha; exact ⟨w, by rw [hw]; rfl⟩
    | some A =>
      rw [ha] at iha; obtain ⟨P, hP, dP⟩ := iha
      rw [hP]
      exact C37_mul_partial p e h.order_bits prof P A dP ⟨k % e.r, e.r⟩
        ⟨rfl, Int.emod_nonneg _ (by omega), Int.emod_lt_of_pos _ (by omega)⟩
        (h0.imp_left fun hz h => hz.1 (Int.dvd_of_emod_eq_zero h))

end

/-- C52 on the named Weierstrass curves. -/
theorem _root_.Redox.Props.C52_named_weierstrass : ∀ t ∈ weierstrassList, ∃ (_ : Fact t.2.Prime) (e : Weierstrass.Curve)
    (g : (wGroup t.2 e).Point), t.1 = R.ok e ∧ addOrderOf g = e.r ∧
    ∀ (x : PExpr) (prof : Profile), x.NoZero e.r ∨ prof = .release →
      WOutcome t.2 e (x.runW prof e) (x.value e.r g (wPoint t.2 e)) := by
  intro t ht
  obtain ⟨hp, e, he, hv⟩ := C49_weierstrass t ht
  obtain ⟨G, g, hG, hg, ho⟩ := hv.generator
  exact ⟨hp, e, g, he, ho, fun x prof h0 => C52_weierstrass t.2 e hv prof G g hG hg x h0⟩

/-- C52 on the named Montgomery curves. -/
theorem _root_.Redox.Props.C52_named_montgomery : ∀ t ∈ montgomeryList, ∃ (_ : Fact t.2.Prime) (e : Montgomery.Curve)
    (g : (mGroup t.2 e).Point), t.1 = R.ok e ∧ addOrderOf g = e.r ∧
    ∀ (x : PExpr) (prof : Profile), x.NoZero e.r ∨ prof = .release →
      MOutcome t.2 e (x.runM prof e) (x.value e.r g (mPoint t.2 e)) := by
  intro t ht
  obtain ⟨hp, e, he, hv⟩ := C49_montgomery t ht
  obtain ⟨G, g, hG, hg, ho⟩ := hv.generator
  exact ⟨hp, e, g, he, ho, fun x prof h0 => C52_montgomery t.2 e hv prof G g hG hg x h0⟩

/-- C52 on the named Edwards curves. -/
theorem _root_.Redox.Props.C52_named_edwards : ∀ t ∈ edwardsList, ∃ (_ : Fact t.2.Prime) (e : Edwards.Curve)
    (_ : ECurve t.2 e) (g : eGroup t.2 e), t.1 = R.ok e ∧ addOrderOf g = e.r ∧
    ∀ (x : PExpr) (prof : Profile), x.NoZero e.r ∨ prof = .release →
      EOutcome t.2 e (x.runE prof e) (x.value e.r g (ePoint t.2 e)) := by
  intro t ht
  obtain ⟨hp, e, he, hv⟩ := C49_edwards t ht
  obtain ⟨G, g, hG, hg, ho⟩ := hv.generator
  haveI := hv.curve
  exact ⟨hp, e, hv.curve, g, he, ho, fun x prof h0 => C52_edwards t.2 e hv prof G g hG hg x h0⟩

/-- A concrete expression, `2 (G + G) - 3 G - G == O`, run by the kernel on two built-in curves and one from each other
family, in the debug profile. -/
example :
    let t : PExpr := .sub (.sub (.mul 2 (.add .generator .generator)) (.mul 3 .generator)) .generator
    (do (← t.runW .debug p256).eq (← p256.identity)) = R.ok true ∧
    (do (← t.runM .debug curve25519).eq (← curve25519.identity)) = R.ok true ∧
    (do (← t.runE .debug edwards25519).eq (← edwards25519.identity)) = R.ok true ∧
    PExpr.runW .release p256 (.add .generator (.point 1 1)) = R.panic .notValidPoint := by
  refine ⟨?_, ?_, ?_, ?_⟩ <;> decide +kernel

end Redox.Props.Inst
