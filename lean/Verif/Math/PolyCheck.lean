import Mathlib.Data.ZMod.Basic
import Mathlib.Algebra.Field.ZMod
import Mathlib.Algebra.BigOperators.Fin
import Mathlib.Tactic.Ring
import Mathlib.Tactic.LinearCombination

/-!
# Polynomial identities with large coefficients modulo `p`, checked by evaluation

A polynomial is the list of its coefficients, constant term first.
-/

namespace Redox.PolyC

/-- Value of a polynomial over any commutative semiring. -/
def evalP {K : Type*} [CommSemiring K] (x : K) : List K → K
  | [] => 0
  | c :: cs => c + x * evalP x cs

/-- `evalP` is the usual sum. -/
theorem evalP_eq_sum {K : Type*} [CommSemiring K] (x : K) (cs : List K) :
    evalP x cs = ∑ i : Fin cs.length, cs.get i * x ^ (i : ℕ) := by
  induction cs with
  | nil => simp [evalP]
  | cons c cs ih =>
    rw [evalP, ih]
    refine Eq.trans ?_ (Fin.sum_univ_succ (n := cs.length) fun i => (c :: cs).get i * x ^ (i : ℕ)).symm
    simp only [List.get_eq_getElem, List.length_cons, Fin.val_zero, pow_zero, mul_one, List.getElem_cons_zero, Fin.val_succ,
      List.getElem_cons_succ, Finset.mul_sum]
    congr 1
    refine Finset.sum_congr rfl fun i _ => ?_
    ring

/-- Sum, coefficients reduced. -/
def addL (p : ℕ) : List ℕ → List ℕ → List ℕ
  | [], b => b
  | a, [] => a
  | a :: as, b :: bs => (a + b) % p :: addL p as bs

/-- Product by a constant, coefficients reduced. -/
def smulL (p k : ℕ) (a : List ℕ) : List ℕ := a.map fun c => k * c % p

/-- Product, coefficients reduced. -/
def mulL (p : ℕ) : List ℕ → List ℕ → List ℕ
  | [], _ => []
  | a :: as, b => addL p (smulL p a b) (0 :: mulL p as b)

variable {p : ℕ}

/-- The value modulo `p` of a list of natural coefficients. -/
def ev (x : ZMod p) (a : List ℕ) : ZMod p := evalP x (a.map Nat.cast)

@[simp] theorem ev_nil (x : ZMod p) : ev x [] = 0 := rfl

@[simp] theorem ev_cons (x : ZMod p) (c : ℕ) (a : List ℕ) : ev x (c :: a) = c + x * ev x a := rfl

theorem ev_add (x : ZMod p) (a b : List ℕ) : ev x (addL p a b) = ev x a + ev x b := by
  induction a, b using addL.induct with
  | case1 b => simp [addL]
  | case2 a h => simp [addL]
  | case3 a as b bs ih =>
    simp only [addL, ev_cons, ih, ZMod.natCast_mod]
    push_cast; ring

theorem ev_smul (x : ZMod p) (k : ℕ) (a : List ℕ) : ev x (smulL p k a) = k * ev x a := by
  induction a with
  | nil => simp [smulL]
  | cons c a ih =>
    simp only [smulL, List.map_cons, ev_cons, ZMod.natCast_mod] at ih ⊢
    rw [ih]; push_cast; ring

theorem ev_mul (x : ZMod p) (a b : List ℕ) : ev x (mulL p a b) = ev x a * ev x b := by
  induction a with
  | nil => simp [mulL]
  | cons c a ih =>
    simp only [mulL, ev_add, ev_smul, ev_cons, ih]
    push_cast; ring

/-- Cube. -/
def cubeL (p : ℕ) (a : List ℕ) : List ℕ := mulL p a (mulL p a a)

theorem ev_cube (x : ZMod p) (a : List ℕ) : ev x (cubeL p a) = ev x a ^ 3 := by
  rw [cubeL, ev_mul, ev_mul]; ring

/-- Coefficients of two polynomials agree, up to trailing zeros. -/
def eqL : List ℕ → List ℕ → Bool
  | [], b => b.all (· == 0)
  | a, [] => a.all (· == 0)
  | a :: as, b :: bs => a == b && eqL as bs

theorem ev_zero (x : ZMod p) (a : List ℕ) (h : a.all (· == 0) = true) : ev x a = 0 := by
  induction a with
  | nil => rfl
  | cons c a ih =>
    simp only [List.all_cons, Bool.and_eq_true, beq_iff_eq] at h
    rw [ev_cons, ih h.2, h.1]; simp

theorem ev_eq (x : ZMod p) (a b : List ℕ) (h : eqL a b = true) : ev x a = ev x b := by
  induction a, b using eqL.induct with
  | case1 b => rw [eqL] at h; rw [ev_zero x b h]; rfl
  | case2 a h' =>
    cases a with
    | nil => rfl
    | cons c a => rw [eqL] at h; rw [ev_zero x _ h]; rfl; simp
  | case3 a as b bs ih =>
    simp only [eqL, Bool.and_eq_true, beq_iff_eq] at h
    rw [ev_cons, ev_cons, h.1, ih h.2]

/-- The identity that makes `(xn/xd, y yn/yd)` a map from `y² = x³ + a0 x + b0` to `y² = x³ + a1 x + b1`. -/
def isoCheck (p a0 b0 a1 b1 : ℕ) (xn xd yn yd : List ℕ) : Bool :=
  let xd2 := mulL p xd xd
  let xd3 := mulL p xd xd2
  eqL (mulL p (addL p (cubeL p xn) (addL p (smulL p a1 (mulL p xn xd2)) (smulL p b1 xd3))) (mulL p yd yd))
    (mulL p [b0 % p, a0 % p, 0, 1] (mulL p (mulL p yn yn) xd3))

theorem isoCheck_spec {a0 b0 a1 b1 : ℕ} {xn xd yn yd : List ℕ} (h : isoCheck p a0 b0 a1 b1 xn xd yn yd = true) (x : ZMod p) :
    (ev x xn ^ 3 + a1 * ev x xn * ev x xd ^ 2 + b1 * ev x xd ^ 3) * ev x yd ^ 2 =
      (x ^ 3 + a0 * x + b0) * ev x yn ^ 2 * ev x xd ^ 3 := by
  have := ev_eq x _ _ h
  simp only [ev_mul, ev_add, ev_cube, ev_smul, ev_cons, ev_nil, ZMod.natCast_mod] at this
  push_cast at this
  linear_combination this

/-- `(X - r)^k`. -/
def powLin (p r : ℕ) : ℕ → List ℕ
  | 0 => [1]
  | k + 1 => mulL p [p - r, 1] (powLin p r k)

/-- The product of `(X - r)^k` over the list. -/
def linProd (p k : ℕ) : List ℕ → List ℕ
  | [] => [1]
  | r :: rs => mulL p (powLin p r k) (linProd p k rs)

theorem ev_powLin (x : ZMod p) {r : ℕ} (h : r < p) (k : ℕ) : ev x (powLin p r k) = (x - r) ^ k := by
  induction k with
  | zero => simp [powLin]
  | succ k ih =>
    rw [powLin, ev_mul, ih, ev_cons, ev_cons, ev_nil, Nat.cast_sub h.le, ZMod.natCast_self]
    push_cast; ring

theorem ev_linProd_eq_zero [Fact p.Prime] {x : ZMod p} {k : ℕ} (hk : k ≠ 0) {rs : List ℕ} (h : rs.all (· < p) = true) :
    ev x (linProd p k rs) = 0 ↔ ∃ r ∈ rs, x = (r : ZMod p) := by
  induction rs with
  | nil => simp [linProd]
  | cons r rs ih =>
    simp only [List.all_cons, Bool.and_eq_true, decide_eq_true_eq] at h
    rw [linProd, ev_mul, mul_eq_zero, ih h.2, ev_powLin x h.1, pow_eq_zero_iff hk, sub_eq_zero]
    simp

end Redox.PolyC
