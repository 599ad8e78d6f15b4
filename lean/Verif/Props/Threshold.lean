import Verif.Props.BlindProps
import Mathlib.LinearAlgebra.Lagrange

/-!
# C96: threshold evaluation

A secret is the constant term of a polynomial with coefficients modulo the group order; the holder of the identifier `x` has the value of
the polynomial at `x`. The programs below are what a user of the library writes to hand out such shares, to apply them to a point and to
combine the results.
-/

set_option linter.unusedSectionVars false

namespace Redox.Props.Threshold

open Spec Redox.Inst Redox.Props.Flow

/-- The value at `x` of the polynomial with the given coefficients, constant term first. -/
def polyValue (x : ℤ) : List ℤ → ℤ
  | [] => 0
  | c :: cs => c + polyValue x cs * x

/-- The share of the holder of `x`, computed with the scalar operations (`mk` is `new_scalar` of the curve). -/
def share (mk : ℤ → R Scalar) (x : ℤ) : List ℤ → R Scalar
  | [] => mk 0
  | c :: cs => do (← mk c).add (← (← share mk x cs).mul (← mk x))

/-- The product of `y / (y - x)` over the given identifiers, computed with the scalar operations. -/
def weight (mk : ℤ → R Scalar) (x : ℤ) : List ℤ → R Scalar
  | [] => mk 1
  | y :: ys => do
    let sy ← mk y
    (← sy.div (← sy.sub (← mk x))).mul (← weight mk x ys)

/-- The Lagrange coefficient at zero of `x` among the identifiers `xs`. -/
def lagrange (mk : ℤ → R Scalar) (xs : List ℤ) (x : ℤ) : R Scalar := weight mk x (xs.filter (· ≠ x))

/-- The sum of `share * lagrange` over the identifiers in the last argument. -/
def recover (mk : ℤ → R Scalar) (cs xs : List ℤ) : List ℤ → R Scalar
  | [] => mk 0
  | x :: t => do (← (← share mk x cs).mul (← lagrange mk xs x)).add (← recover mk cs xs t)

/-! ### Scalars as residues -/

section
variable (r : ℕ) [hr : Fact r.Prime]

/-- The scalar with a given residue. -/
def sc (z : ZMod r) : Scalar := ⟨(z.val : ℤ), r⟩

theorem sc_int (a : ℤ) : sc r a = ⟨a % r, r⟩ := by
  rw [sc, ZMod.val_intCast]

theorem sc_val (z : ZMod r) : sc r z = ⟨(z.val : ℤ) % r, r⟩ := by
  rw [← sc_int]; simp [sc]

theorem new_sc (a : ℤ) : Scalar.new a r = R.ok (sc r a) := by
  rw [scalar_new_eq r hr.out.one_le, sc_int]

theorem add_sc (a b : ZMod r) : (sc r a).add (sc r b) = R.ok (sc r (a + b)) := by
  rw [sc_val r a, sc_val r b, scalar_add_new hr.out.one_le, ← sc_int]
  simp

theorem mul_sc (a b : ZMod r) : (sc r a).mul (sc r b) = R.ok (sc r (a * b)) := by
  rw [sc_val r a, sc_val r b, scalar_mul_new hr.out.one_le, ← sc_int]
  simp

theorem sub_sc (a b : ZMod r) : (sc r a).sub (sc r b) = R.ok (sc r (a - b)) := by
  obtain ⟨x, y, hx, hy, -, -, -, h, -⟩ := C19_arith r hr.out.one_le a.val b.val
  rw [new_sc, R.ok.injEq] at hx hy
  subst hx hy
  rw [new_sc] at h
  simpa using h

theorem dvd_val (z : ZMod r) : (r : ℤ) ∣ (z.val : ℤ) ↔ z = 0 := by
  rw [← ZMod.intCast_zmod_eq_zero_iff_dvd]; simp

theorem div_sc (h2 : r ≠ 2) (a b : ZMod r) (hb : b ≠ 0) : (sc r a).div (sc r b) = R.ok (sc r (a / b)) := by
  obtain ⟨c, hc, hd⟩ := scalar_div_new hr.out h2 a.val b.val (by rwa [dvd_val])
  rw [sc_val r a, sc_val r b, hc, ← sc_int]
  congr 2
  rw [eq_div_iff hb]
  have := (ZMod.intCast_zmod_eq_zero_iff_dvd _ r).2 hd
  simpa [sub_eq_zero] using this

/-- The Lagrange coefficient as a residue. -/
def lag (xs : List ℤ) (x : ℤ) : ZMod r := ((xs.filter (· ≠ x)).map fun y : ℤ => (y : ZMod r) / ((y : ZMod r) - x)).prod

theorem pairwise_apart {xs : List ℤ} (hx : xs.Pairwise fun x y => ¬ (r : ℤ) ∣ x - y) {a b : ℤ} (ha : a ∈ xs) (hb : b ∈ xs) (hne : a ≠ b) :
    ¬ (r : ℤ) ∣ a - b := by
  have : Std.Symm fun x y : ℤ => ¬ (r : ℤ) ∣ x - y := ⟨fun a b h => by rwa [← dvd_neg, neg_sub]⟩
  exact hx.forall ha hb hne

/-- The polynomial. -/
noncomputable def poly : List ℤ → Polynomial (ZMod r)
  | [] => 0
  | c :: cs => Polynomial.C (c : ZMod r) + poly cs * Polynomial.X

theorem poly_eval (x : ℤ) (cs : List ℤ) : (poly r cs).eval (x : ZMod r) = (polyValue x cs : ℤ) := by
  induction cs with
  | nil => simp [poly, polyValue]
  | cons c cs ih => simp [poly, polyValue, ih]

theorem poly_zero (cs : List ℤ) : (poly r cs).eval 0 = ((cs.headD 0 : ℤ) : ZMod r) := by
  cases cs <;> simp [poly]

theorem poly_degree (cs : List ℤ) : (poly r cs).degree < cs.length := by
  rw [Polynomial.degree_lt_iff_coeff_zero]
  induction cs with
  | nil => simp [poly]
  | cons c cs ih =>
    intro m hm
    obtain ⟨m, rfl⟩ : ∃ k, m = k + 1 := ⟨m - 1, by simp at hm; omega⟩
    simp only [List.length_cons, Nat.add_le_add_iff_right] at hm
    rw [poly, Polynomial.coeff_add, Polynomial.coeff_C_succ, Polynomial.coeff_mul_X, ih m hm, zero_add]

theorem lagrange_sum (cs xs : List ℤ) (hlen : cs.length ≤ xs.length) (hx : xs.Pairwise fun x y => ¬ (r : ℤ) ∣ x - y) :
    (xs.map fun x => (polyValue x cs : ZMod r) * lag r xs x).sum = ((cs.headD 0 : ℤ) : ZMod r) := by
  have hn : xs.Nodup := hx.imp fun h e => h (by simp [e])
  have hinj : Set.InjOn (fun x : ℤ => (x : ZMod r)) xs.toFinset := by
    intro a ha b hb hab
    by_contra hne
    simp only [List.coe_toFinset, Set.mem_ofPred_eq] at ha hb
    refine pairwise_apart r hx ha hb hne ((ZMod.intCast_zmod_eq_zero_iff_dvd _ r).1 ?_)
    push_cast
    rw [sub_eq_zero]; exact hab
  have hdeg : (poly r cs).degree < xs.toFinset.card := by
    rw [List.toFinset_card_of_nodup hn]
    exact (poly_degree r cs).trans_le (by exact_mod_cast hlen)
  have h := congrArg (Polynomial.eval 0) (Lagrange.eq_interpolate hinj hdeg)
  rw [poly_zero, Lagrange.interpolate_apply, Polynomial.eval_finsetSum, List.sum_toFinset _ hn] at h
  rw [h]
  congr 1
  refine List.map_congr_left fun x hxm => ?_
  rw [Polynomial.eval_mul, Polynomial.eval_C, poly_eval, lag, Lagrange.basis, Polynomial.eval_prod]
  congr 1
  have he : xs.toFinset.erase x = (xs.filter (· ≠ x)).toFinset := by ext; simp [and_comm]
  rw [he, List.prod_toFinset _ (hn.filter _)]
  congr 1
  refine List.map_congr_left fun y hy => ?_
  simp only [List.mem_filter, decide_eq_true_eq] at hy
  have h0 : (y : ZMod r) - x ≠ 0 := fun h => hy.2 (hinj (by simpa using hy.1) (by simpa using hxm) (sub_eq_zero.1 h))
  have h1 : (x : ZMod r) - y ≠ 0 := fun h => h0 (by rw [← neg_sub, h, neg_zero])
  simp only [Lagrange.basisDivisor, Polynomial.eval_mul, Polynomial.eval_C, Polynomial.eval_sub, Polynomial.eval_X]
  field_simp
  ring

variable {r} {mk : ℤ → R Scalar} (hmk : ∀ a, mk a = R.ok (sc r a))
include hmk

theorem share_sc (x : ℤ) (cs : List ℤ) : share mk x cs = R.ok (sc r (polyValue x cs : ℤ)) := by
  induction cs with
  | nil => simpa [share, polyValue] using hmk 0
  | cons c cs ih => simp only [share, hmk, ih, R.ok_bind, mul_sc, add_sc, polyValue, Int.cast_add, Int.cast_mul]

theorem weight_sc (h2 : r ≠ 2) (x : ℤ) (ys : List ℤ) (hy : ∀ y ∈ ys, ¬ (r : ℤ) ∣ y - x) :
    weight mk x ys = R.ok (sc r (ys.map fun y : ℤ => (y : ZMod r) / ((y : ZMod r) - x)).prod) := by
  induction ys with
  | nil => simpa [weight] using hmk 1
  | cons y ys ih =>
    have h0 : (y : ZMod r) - x ≠ 0 := fun h => hy y (by simp) ((ZMod.intCast_zmod_eq_zero_iff_dvd _ r).1 (by push_cast; exact h))
    simp only [weight, hmk, R.ok_bind, sub_sc, div_sc _ h2 _ _ h0, ih fun y' h' => hy y' (by simp [h']), mul_sc, List.map_cons, List.prod_cons]

theorem lagrange_sc (h2 : r ≠ 2) (xs : List ℤ) (hx : xs.Pairwise fun x y => ¬ (r : ℤ) ∣ x - y) (x : ℤ) (hm : x ∈ xs) :
    lagrange mk xs x = R.ok (sc r (lag r xs x)) := by
  refine weight_sc hmk h2 x _ fun y hy => ?_
  simp only [List.mem_filter, decide_eq_true_eq] at hy
  exact pairwise_apart r hx hy.1 hm hy.2

theorem recover_sc (h2 : r ≠ 2) (cs xs : List ℤ) (hx : xs.Pairwise fun x y => ¬ (r : ℤ) ∣ x - y) (t : List ℤ) (ht : t ⊆ xs) :
    recover mk cs xs t = R.ok (sc r (t.map fun x => (polyValue x cs : ZMod r) * lag r xs x).sum) := by
  induction t with
  | nil => simpa [recover] using hmk 0
  | cons x t ih =>
    simp only [recover, share_sc hmk, R.ok_bind, lagrange_sc hmk h2 xs hx x (ht (by simp)), mul_sc, ih fun y hy => ht (by simp [hy]), add_sc,
      List.map_cons, List.sum_cons]

end

/-- C96, scalars: combining the shares of at least as many identifiers as the polynomial has coefficients gives the secret. -/
theorem _root_.Redox.Props.C96_scalars (r : ℕ) (hr : r.Prime) (h2 : r ≠ 2) (cs xs : List ℤ) (hlen : cs.length ≤ xs.length)
    (hx : xs.Pairwise fun x y => ¬ (r : ℤ) ∣ x - y) :
    recover (Scalar.new · r) cs xs xs = Scalar.new (cs.headD 0) r := by
  have := Fact.mk hr
  rw [recover_sc (new_sc r) h2 cs xs hx xs fun _ h => h, lagrange_sum r cs xs hlen hx, new_sc]

/-! ### Points -/

section
variable {r : ℕ} [hr : Fact r.Prime]

theorem lag_ne_zero (xs : List ℤ) (hx : xs.Pairwise fun x y => ¬ (r : ℤ) ∣ x - y) (h0 : ∀ x ∈ xs, ¬ (r : ℤ) ∣ x) (x : ℤ) (hm : x ∈ xs) :
    lag r xs x ≠ 0 := by
  refine List.prod_ne_zero fun h => ?_
  obtain ⟨y, hy, he⟩ := List.mem_map.1 h
  simp only [List.mem_filter, decide_eq_true_eq] at hy
  rcases div_eq_zero_iff.1 he with h | h
  · exact h0 y hy.1 ((ZMod.intCast_zmod_eq_zero_iff_dvd _ r).1 h)
  · exact pairwise_apart r hx hy.1 hm hy.2 ((ZMod.intCast_zmod_eq_zero_iff_dvd _ r).1 (by push_cast; exact h))

theorem smul_val {G : Type*} [AddCommGroup G] {A : G} (h : r • A = 0) {a b : ℤ} (hab : (a : ZMod r) = b) : a • A = b • A :=
  zsmul_congr h ((ZMod.intCast_zmod_eq_zero_iff_dvd _ r).1 (by push_cast; rw [hab, sub_self]))

end

section
variable (p : ℕ) [Fact p.Prime]

/-- Each holder multiplies the point by their share; the combiner multiplies each result by the Lagrange coefficient and adds up
(Weierstrass). -/
def wThreshold (prof : Profile) (e : Weierstrass.Curve) (P : Weierstrass.Point) (cs xs : List ℤ) : List ℤ → R Weierstrass.Point
  | [] => e.identity
  | x :: t => do
    let Q ← P.mul prof (← share e.newScalar x cs)
    let Q' ← Q.mul prof (← lagrange e.newScalar xs x)
    Q'.add (← wThreshold prof e P cs xs t)

/-- C96, Weierstrass: the combination is the point times the secret, whichever of the holders take part. -/
theorem _root_.Redox.Props.C96_weierstrass (e : Weierstrass.Curve) (h : WValid p e) (hr2 : e.getOrder ≠ 2) (prof : Profile)
    (P : Weierstrass.Point) (A : (wGroup p e).Point) (hP : WDenotes p e P A) (hA : e.getOrder • A = 0) (cs xs : List ℤ) (hlen : cs.length ≤ xs.length)
    (hx : xs.Pairwise fun x y => ¬ (e.getOrder : ℤ) ∣ x - y)
    (h0 : (∀ x ∈ xs, ¬ (e.getOrder : ℤ) ∣ x ∧ ¬ (e.getOrder : ℤ) ∣ polyValue x cs) ∨ prof = .release) :
    WReturns p e (wThreshold prof e P cs xs xs) (cs.headD 0 • A) := by
  have hrp := h.order_prime
  simp only [Weierstrass.Curve.getOrder] at hA hx h0 hr2 hrp
  have := Fact.mk hrp
  have hr1 : 1 ≤ e.r := hrp.one_le
  have hmk : ∀ a, e.newScalar a = R.ok (sc e.r a) := new_sc e.r
  have key : ∀ P B (z : ZMod e.r), WDenotes p e P B → e.r • B = 0 → (z ≠ 0 ∨ prof = .release) →
      ∃ S, P.mul prof (sc e.r z) = R.ok S ∧ WDenotes p e S ((z.val : ℤ) • B) := by
    intro P B z hP hB hz
    have := C26_integer p e h.curve h.complete h.order_bits hr1 prof P B hP hB z.val (hz.imp (fun h => by rwa [dvd_val]) id)
    rwa [Weierstrass.Curve.newScalar, scalar_new_eq e.r hr1, R.ok_bind, ← sc_val] at this
  have main : ∀ t : List ℤ, t ⊆ xs → ∃ S, wThreshold prof e P cs xs t = R.ok S ∧
      WDenotes p e S ((t.map fun x => (polyValue x cs : ZMod e.r) * lag e.r xs x).sum.val • A) := by
    intro t
    induction t with
    | nil =>
      intro _
      simpa [wThreshold] using (let ⟨I, hI, hId, _⟩ := C22_identity p e h.curve; ⟨I, hI, hId⟩ : ∃ I, e.identity = R.ok I ∧ WDenotes p e I 0)
    | cons x t ih =>
      intro ht
      have hm : x ∈ xs := ht (by simp)
      obtain ⟨T, hT, dT⟩ := ih fun y hy => ht (by simp [hy])
      obtain ⟨Q, hQ, dQ⟩ := key P A (polyValue x cs : ℤ) hP hA (h0.imp (fun h hz =>
        (h x hm).2 ((ZMod.intCast_zmod_eq_zero_iff_dvd _ _).1 hz)) id)
      obtain ⟨Q', hQ', dQ'⟩ := key Q _ (lag e.r xs x) dQ (killed_smul hA _) (h0.imp (fun h => lag_ne_zero xs hx (fun x hx => (h x hx).1) x hm) id)
      obtain ⟨S, hS, dS⟩ := (C23_group_law p e h.curve h.complete Q' T _ _ dQ' dT).1
      refine ⟨S, ?_, ?_⟩
      · simp only [wThreshold, share_sc hmk, R.ok_bind, hQ, lagrange_sc hmk hr2 xs hx x hm, hQ', hT, hS]
      · convert dS using 1
        rw [← natCast_zsmul, ← natCast_zsmul, ← mul_zsmul, ← add_zsmul]
        refine smul_val hA ?_
        push_cast
        simp [mul_comm]
  obtain ⟨S, hS, dS⟩ := main xs fun _ h => h
  refine ⟨S, hS, ?_⟩
  convert dS using 1
  rw [← natCast_zsmul]
  refine smul_val hA ?_
  rw [lagrange_sum e.r cs xs hlen hx]
  simp

/-- A sum of multiples (Weierstrass). -/
def wLincomb (prof : Profile) (e : Weierstrass.Curve) : List (ℤ × Weierstrass.Point) → R Weierstrass.Point
  | [] => e.identity
  | (k, P) :: t => do (← P.mul prof (← e.newScalar k)).add (← wLincomb prof e t)

/-- C97, Weierstrass. -/
theorem _root_.Redox.Props.C97_weierstrass (e : Weierstrass.Curve) (h : WValid p e) (prof : Profile)
    (l : List (ℤ × Weierstrass.Point × (wGroup p e).Point)) (hl : ∀ x ∈ l, WDenotes p e x.2.1 x.2.2 ∧ e.getOrder • x.2.2 = 0)
    (h0 : (∀ x ∈ l, ¬ (e.getOrder : ℤ) ∣ x.1) ∨ prof = .release) :
    WReturns p e (wLincomb prof e (l.map fun x => (x.1, x.2.1))) (l.map fun x => x.1 • x.2.2).sum := by
  have hrp := h.order_prime
  have hr1 : 1 ≤ e.r := hrp.one_le
  induction l with
  | nil => exact (let ⟨I, hI, hId, _⟩ := C22_identity p e h.curve; ⟨I, hI, hId⟩ : ∃ I, e.identity = R.ok I ∧ WDenotes p e I 0)
  | cons x l ih =>
    obtain ⟨T, hT, dT⟩ := ih (fun y hy => hl y (by simp [hy])) (h0.imp (fun h y hy => h y (by simp [hy])) id)
    have hx := hl x (by simp)
    obtain ⟨Q, hQ, dQ⟩ := C26_integer p e h.curve h.complete h.order_bits hr1 prof x.2.1 x.2.2 hx.1 hx.2 x.1 (h0.imp (fun h => h x (by simp)) id)
    obtain ⟨S, hS, dS⟩ := (C23_group_law p e h.curve h.complete Q T _ _ dQ dT).1
    refine ⟨S, ?_, by simpa using dS⟩
    obtain ⟨s, hs, hQ⟩ := R.bind_eq_ok.1 hQ
    simp only [List.map_cons, wLincomb, hs, hQ, hT, hS, R.ok_bind]

/-- Each holder multiplies the point by their share; the combiner multiplies each result by the Lagrange coefficient and adds up
(Montgomery). -/
def mThreshold (prof : Profile) (e : Montgomery.Curve) (P : Montgomery.Point) (cs xs : List ℤ) : List ℤ → R Montgomery.Point
  | [] => e.identity
  | x :: t => do
    let Q ← P.mul prof (← share e.newScalar x cs)
    let Q' ← Q.mul prof (← lagrange e.newScalar xs x)
    Q'.add (← mThreshold prof e P cs xs t)

/-- C96, Montgomery: the combination is the point times the secret, whichever of the holders take part. -/
theorem _root_.Redox.Props.C96_montgomery (e : Montgomery.Curve) (h : MValid p e) (hr2 : e.getOrder ≠ 2) (prof : Profile)
    (P : Montgomery.Point) (A : (mGroup p e).Point) (hP : MDenotes p e P A) (hA : e.getOrder • A = 0) (cs xs : List ℤ) (hlen : cs.length ≤ xs.length)
    (hx : xs.Pairwise fun x y => ¬ (e.getOrder : ℤ) ∣ x - y)
    (h0 : (∀ x ∈ xs, ¬ (e.getOrder : ℤ) ∣ x ∧ ¬ (e.getOrder : ℤ) ∣ polyValue x cs) ∨ prof = .release) :
    MReturns p e (mThreshold prof e P cs xs xs) (cs.headD 0 • A) := by
  have hrp := h.order_prime
  simp only [Montgomery.Curve.getOrder] at hA hx h0 hr2 hrp
  have := Fact.mk hrp
  have hr1 : 1 ≤ e.r := hrp.one_le
  have hmk : ∀ a, e.newScalar a = R.ok (sc e.r a) := new_sc e.r
  have key : ∀ P B (z : ZMod e.r), MDenotes p e P B → e.r • B = 0 → (z ≠ 0 ∨ prof = .release) →
      ∃ S, P.mul prof (sc e.r z) = R.ok S ∧ MDenotes p e S ((z.val : ℤ) • B) := by
    intro P B z hP hB hz
    have := C33_integer_partial p e h.curve h.b_one h.complete h.order_bits hr1 prof P B hP hB z.val (hz.imp (fun h => by rwa [dvd_val]) id)
    rwa [Montgomery.Curve.newScalar, scalar_new_eq e.r hr1, R.ok_bind, ← sc_val] at this
  have main : ∀ t : List ℤ, t ⊆ xs → ∃ S, mThreshold prof e P cs xs t = R.ok S ∧
      MDenotes p e S ((t.map fun x => (polyValue x cs : ZMod e.r) * lag e.r xs x).sum.val • A) := by
    intro t
    induction t with
    | nil =>
      intro _
      simpa [mThreshold] using (Mo.identity_denotes h.curve : ∃ I, e.identity = R.ok I ∧ MDenotes p e I 0)
    | cons x t ih =>
      intro ht
      have hm : x ∈ xs := ht (by simp)
      obtain ⟨T, hT, dT⟩ := ih fun y hy => ht (by simp [hy])
      obtain ⟨Q, hQ, dQ⟩ := key P A (polyValue x cs : ℤ) hP hA (h0.imp (fun h hz =>
        (h x hm).2 ((ZMod.intCast_zmod_eq_zero_iff_dvd _ _).1 hz)) id)
      obtain ⟨Q', hQ', dQ'⟩ := key Q _ (lag e.r xs x) dQ (killed_smul hA _) (h0.imp (fun h => lag_ne_zero xs hx (fun x hx => (h x hx).1) x hm) id)
      obtain ⟨S, hS, dS⟩ := (C32_group_law_partial p e h.curve h.b_one h.complete Q' T _ _ dQ' dT).1
      refine ⟨S, ?_, ?_⟩
      · simp only [mThreshold, share_sc hmk, R.ok_bind, hQ, lagrange_sc hmk hr2 xs hx x hm, hQ', hT, hS]
      · convert dS using 1
        rw [← natCast_zsmul, ← natCast_zsmul, ← mul_zsmul, ← add_zsmul]
        refine smul_val hA ?_
        push_cast
        simp [mul_comm]
  obtain ⟨S, hS, dS⟩ := main xs fun _ h => h
  refine ⟨S, hS, ?_⟩
  convert dS using 1
  rw [← natCast_zsmul]
  refine smul_val hA ?_
  rw [lagrange_sum e.r cs xs hlen hx]
  simp

/-- A sum of multiples (Montgomery). -/
def mLincomb (prof : Profile) (e : Montgomery.Curve) : List (ℤ × Montgomery.Point) → R Montgomery.Point
  | [] => e.identity
  | (k, P) :: t => do (← P.mul prof (← e.newScalar k)).add (← mLincomb prof e t)

/-- C97, Montgomery. -/
theorem _root_.Redox.Props.C97_montgomery (e : Montgomery.Curve) (h : MValid p e) (prof : Profile)
    (l : List (ℤ × Montgomery.Point × (mGroup p e).Point)) (hl : ∀ x ∈ l, MDenotes p e x.2.1 x.2.2 ∧ e.getOrder • x.2.2 = 0)
    (h0 : (∀ x ∈ l, ¬ (e.getOrder : ℤ) ∣ x.1) ∨ prof = .release) :
    MReturns p e (mLincomb prof e (l.map fun x => (x.1, x.2.1))) (l.map fun x => x.1 • x.2.2).sum := by
  have hrp := h.order_prime
  have hr1 : 1 ≤ e.r := hrp.one_le
  induction l with
  | nil => exact (Mo.identity_denotes h.curve : ∃ I, e.identity = R.ok I ∧ MDenotes p e I 0)
  | cons x l ih =>
    obtain ⟨T, hT, dT⟩ := ih (fun y hy => hl y (by simp [hy])) (h0.imp (fun h y hy => h y (by simp [hy])) id)
    have hx := hl x (by simp)
    obtain ⟨Q, hQ, dQ⟩ := C33_integer_partial p e h.curve h.b_one h.complete h.order_bits hr1 prof x.2.1 x.2.2 hx.1 hx.2 x.1 (h0.imp (fun h => h x (by simp)) id)
    obtain ⟨S, hS, dS⟩ := (C32_group_law_partial p e h.curve h.b_one h.complete Q T _ _ dQ dT).1
    refine ⟨S, ?_, by simpa using dS⟩
    obtain ⟨s, hs, hQ⟩ := R.bind_eq_ok.1 hQ
    simp only [List.map_cons, mLincomb, hs, hQ, hT, hS, R.ok_bind]

/-- Each holder multiplies the point by their share; the combiner multiplies each result by the Lagrange coefficient and adds up
(Edwards). -/
def eThreshold (prof : Profile) (e : Edwards.Curve) (P : Edwards.Point) (cs xs : List ℤ) : List ℤ → R Edwards.Point
  | [] => e.identity
  | x :: t => do
    let Q ← P.mul prof (← share e.newScalar x cs)
    let Q' ← Q.mul prof (← lagrange e.newScalar xs x)
    Q'.add (← eThreshold prof e P cs xs t)

/-- C96, Edwards: the combination is the point times the secret, whichever of the holders take part. -/
theorem _root_.Redox.Props.C96_edwards (e : Edwards.Curve) (h : EValid p e) [ECurve p e] (hr2 : e.getOrder ≠ 2) (prof : Profile)
    (P : Edwards.Point) (A : eGroup p e) (hP : EDenotes p e P A) (hA : e.getOrder • A = 0) (cs xs : List ℤ) (hlen : cs.length ≤ xs.length)
    (hx : xs.Pairwise fun x y => ¬ (e.getOrder : ℤ) ∣ x - y)
    (h0 : (∀ x ∈ xs, ¬ (e.getOrder : ℤ) ∣ x ∧ ¬ (e.getOrder : ℤ) ∣ polyValue x cs) ∨ prof = .release) :
    EReturns p e (eThreshold prof e P cs xs xs) (cs.headD 0 • A) := by
  have hrp := h.order_prime
  simp only [Edwards.Curve.getOrder] at hA hx h0 hr2 hrp
  have := Fact.mk hrp
  have hr1 : 1 ≤ e.r := hrp.one_le
  have hmk : ∀ a, e.newScalar a = R.ok (sc e.r a) := new_sc e.r
  have key : ∀ P B (z : ZMod e.r), EDenotes p e P B → e.r • B = 0 → (z ≠ 0 ∨ prof = .release) →
      ∃ S, P.mul prof (sc e.r z) = R.ok S ∧ EDenotes p e S ((z.val : ℤ) • B) := by
    intro P B z hP hB hz
    have := C37_integer_partial p e h.order_bits hr1 prof P B hP hB z.val (hz.imp (fun h => by rwa [dvd_val]) id)
    rwa [Edwards.Curve.newScalar, scalar_new_eq e.r hr1, R.ok_bind, ← sc_val] at this
  have main : ∀ t : List ℤ, t ⊆ xs → ∃ S, eThreshold prof e P cs xs t = R.ok S ∧
      EDenotes p e S ((t.map fun x => (polyValue x cs : ZMod e.r) * lag e.r xs x).sum.val • A) := by
    intro t
    induction t with
    | nil =>
      intro _
      simpa [eThreshold] using (⟨_, ELink.identity_pt ECurve.params, ELink.identity_denotes⟩ : ∃ I, e.identity = R.ok I ∧ EDenotes p e I 0)
    | cons x t ih =>
      intro ht
      have hm : x ∈ xs := ht (by simp)
      obtain ⟨T, hT, dT⟩ := ih fun y hy => ht (by simp [hy])
      obtain ⟨Q, hQ, dQ⟩ := key P A (polyValue x cs : ℤ) hP hA (h0.imp (fun h hz =>
        (h x hm).2 ((ZMod.intCast_zmod_eq_zero_iff_dvd _ _).1 hz)) id)
      obtain ⟨Q', hQ', dQ'⟩ := key Q _ (lag e.r xs x) dQ (killed_smul hA _) (h0.imp (fun h => lag_ne_zero xs hx (fun x hx => (h x hx).1) x hm) id)
      obtain ⟨S, hS, dS⟩ := (C36_group_law p e Q' T _ _ dQ' dT).1
      refine ⟨S, ?_, ?_⟩
      · simp only [eThreshold, share_sc hmk, R.ok_bind, hQ, lagrange_sc hmk hr2 xs hx x hm, hQ', hT, hS]
      · convert dS using 1
        rw [← natCast_zsmul, ← natCast_zsmul, ← mul_zsmul, ← add_zsmul]
        refine smul_val hA ?_
        push_cast
        simp [mul_comm]
  obtain ⟨S, hS, dS⟩ := main xs fun _ h => h
  refine ⟨S, hS, ?_⟩
  convert dS using 1
  rw [← natCast_zsmul]
  refine smul_val hA ?_
  rw [lagrange_sum e.r cs xs hlen hx]
  simp

/-- A sum of multiples (Edwards). -/
def eLincomb (prof : Profile) (e : Edwards.Curve) : List (ℤ × Edwards.Point) → R Edwards.Point
  | [] => e.identity
  | (k, P) :: t => do (← P.mul prof (← e.newScalar k)).add (← eLincomb prof e t)

/-- C97, Edwards. -/
theorem _root_.Redox.Props.C97_edwards (e : Edwards.Curve) (h : EValid p e) [ECurve p e] (prof : Profile)
    (l : List (ℤ × Edwards.Point × eGroup p e)) (hl : ∀ x ∈ l, EDenotes p e x.2.1 x.2.2 ∧ e.getOrder • x.2.2 = 0)
    (h0 : (∀ x ∈ l, ¬ (e.getOrder : ℤ) ∣ x.1) ∨ prof = .release) :
    EReturns p e (eLincomb prof e (l.map fun x => (x.1, x.2.1))) (l.map fun x => x.1 • x.2.2).sum := by
  have hrp := h.order_prime
  have hr1 : 1 ≤ e.r := hrp.one_le
  induction l with
  | nil => exact (⟨_, ELink.identity_pt ECurve.params, ELink.identity_denotes⟩ : ∃ I, e.identity = R.ok I ∧ EDenotes p e I 0)
  | cons x l ih =>
    obtain ⟨T, hT, dT⟩ := ih (fun y hy => hl y (by simp [hy])) (h0.imp (fun h y hy => h y (by simp [hy])) id)
    have hx := hl x (by simp)
    obtain ⟨Q, hQ, dQ⟩ := C37_integer_partial p e h.order_bits hr1 prof x.2.1 x.2.2 hx.1 hx.2 x.1 (h0.imp (fun h => h x (by simp)) id)
    obtain ⟨S, hS, dS⟩ := (C36_group_law p e Q T _ _ dQ dT).1
    refine ⟨S, ?_, by simpa using dS⟩
    obtain ⟨s, hs, hQ⟩ := R.bind_eq_ok.1 hQ
    simp only [List.map_cons, eLincomb, hs, hQ, hT, hS, R.ok_bind]

end

/-- A polynomial of degree one, three identifiers: two holders are enough, and any two of them give the point times the secret. -/
example : (do
    let P ← edwards25519.getGenerator
    let a ← eThreshold .debug edwards25519 P [5, 11] [1, 3] [1, 3]
    let b ← eThreshold .debug edwards25519 P [5, 11] [2, 3] [2, 3]
    let c ← P.mul .debug (← edwards25519.newScalar 5)
    return (← a.eq c) && (← b.eq c)) = R.ok true := by
  decide +kernel

/-- One holder of a sharing of degree one is not enough: `cs.length ≤ xs.length` cannot be dropped. -/
example : recover (Scalar.new · 13) [5, 11] [1] [1] ≠ Scalar.new 5 13 := by decide +kernel

/-- The hypotheses of C96 on the identifiers. -/
example : [1, 3].Pairwise (fun x y : ℤ => ¬ (edwards25519.getOrder : ℤ) ∣ x - y) ∧
    ∀ x ∈ [1, 3], ¬ (edwards25519.getOrder : ℤ) ∣ x ∧ ¬ (edwards25519.getOrder : ℤ) ∣ polyValue x [5, 11] := by
  decide +kernel

end Redox.Props.Threshold
