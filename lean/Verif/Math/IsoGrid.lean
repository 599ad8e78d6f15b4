import Verif.Math.PolyCheck
import Mathlib.Algebra.Polynomial.Roots
import Mathlib.Tactic.FieldSimp

/-!
# The addition law is respected by an isogeny: an identity of polynomials in two variables, checked on a grid

For points `(x₁, y₁)` and `(x₂, y₂)` of `y² = x³ + a x + b` the abscissa of the sum is `U/(x₁ - x₂)²`, with
`U = (x₁x₂ + a)(x₁ + x₂) + 2b - 2w` and `w = y₁y₂`. That an isogeny respects the abscissa of the sum is an identity
`S(x₁, x₂) + w T(x₁, x₂) = 0`, whose coefficients vanish as soon as they do on a sufficiently large grid.
-/

namespace Redox.IsoGrid

open PolyC Polynomial

/-- `s + t w`. -/
structure P2 (K : Type*) where
  s : K
  t : K

/-- The values of the polynomials at an abscissa. -/
structure Vals (K : Type*) where
  x : K
  n : K
  q : K
  m : K
  g : K

section field
variable {F : Type*} [Field F]

/-- Product, with `w² = g`. -/
def P2.mul (g : F) (a b : P2 F) : P2 F := ⟨a.s * b.s + g * (a.t * b.t), a.s * b.t + a.t * b.s⟩

/-- Value. -/
def P2.ev (w : F) (a : P2 F) : F := a.s + w * a.t

theorem P2.ev_mul {w g : F} (h : w ^ 2 = g) (a b : P2 F) : (P2.mul g a b).ev w = a.ev w * b.ev w := by
  subst h
  simp only [P2.ev, P2.mul]; ring

/-- Homogenised Horner rule; the second component is the power of `z`. -/
def hom (g : F) (U : P2 F) (z : F) : List F → P2 F × F
  | [] => (⟨0, 0⟩, 1)
  | c :: cs =>
    let r := hom g U z cs
    let u := P2.mul g U r.1
    (⟨c * r.2 + u.s, u.t⟩, r.2 * z)

theorem hom_snd (g : F) (U : P2 F) (z : F) (cs : List F) : (hom g U z cs).2 = z ^ cs.length := by
  induction cs with
  | nil => simp [hom]
  | cons c cs ih => simp [hom, ih, pow_succ]

theorem hom_ev {w g : F} (h : w ^ 2 = g) (U : P2 F) {z : F} (hz : z ≠ 0) (cs : List F) :
    (hom g U z cs).1.ev w * z = z ^ cs.length * evalP (U.ev w / z) cs := by
  induction cs with
  | nil => simp [hom, evalP, P2.ev]
  | cons c cs ih =>
    have e : (hom g U z (c :: cs)).1.ev w = c * (hom g U z cs).2 + (P2.mul g U (hom g U z cs).1).ev w := by
      simp only [hom, P2.ev]; ring
    rw [e, P2.ev_mul h, hom_snd, evalP, List.length_cons, pow_succ]
    have : z * (U.ev w / z) = U.ev w := by field_simp
    linear_combination U.ev w * ih - z ^ cs.length * evalP (U.ev w / z) cs * this

/-- Numerator of the abscissa of the sum. -/
def sumU (a b x1 x2 : F) : P2 F := ⟨(x1 * x2 + a) * (x1 + x2) + 2 * b, -2⟩

/-- Numerator of the abscissa of the sum of the images. -/
def sumV (A B : F) (v1 v2 : Vals F) : P2 F :=
  ⟨(v1.n * v2.n + A * (v1.q ^ 2 * v2.q ^ 2)) * (v1.n * v2.q ^ 2 + v2.n * v1.q ^ 2) + 2 * B * (v1.q ^ 2 * v2.q ^ 2) ^ 2,
    -2 * (v1.m * v2.m * (v1.q * v2.q))⟩

/-- Difference of the abscissae of the images. -/
def delta (v1 v2 : Vals F) : F := v2.n * v1.q ^ 2 - v1.n * v2.q ^ 2

/-- The identity. -/
def ident (a b A B : F) (xn xd : List F) (v1 v2 : Vals F) : P2 F :=
  let g := v1.g * v2.g
  let U := sumU a b v1.x v2.x
  let z := (v1.x - v2.x) ^ 2
  let hn := (hom g U z xn).1
  let hd := P2.mul g (hom g U z xd).1 (sumV A B v1 v2)
  let d2 := delta v1 v2 ^ 2
  ⟨hn.s * d2 - hd.s, hn.t * d2 - hd.t⟩

theorem ident_symm (a b A B : F) (xn xd : List F) (v1 v2 : Vals F) :
    ident a b A B xn xd v1 v2 = ident a b A B xn xd v2 v1 := by
  have h1 : v1.g * v2.g = v2.g * v1.g := mul_comm _ _
  have h2 : sumU a b v1.x v2.x = sumU a b v2.x v1.x := by
    simp only [sumU]; congr 1; ring
  have h3 : (v1.x - v2.x) ^ 2 = (v2.x - v1.x) ^ 2 := by ring
  have h4 : sumV A B v1 v2 = sumV A B v2 v1 := by
    simp only [sumV, P2.mk.injEq]; constructor <;> ring
  have h5 : delta v1 v2 ^ 2 = delta v2 v1 ^ 2 := by simp only [delta]; ring
  simp only [ident, h1, h2, h3, h4, h5]

theorem ident_spec {a b A B : F} {xn xd : List F} {v1 v2 : Vals F} {w : F} (hw : w ^ 2 = v1.g * v2.g)
    (hl : xn.length = xd.length) (hx : v1.x ≠ v2.x) (h : ident a b A B xn xd v1 v2 = ⟨0, 0⟩) :
    evalP ((sumU a b v1.x v2.x).ev w / (v1.x - v2.x) ^ 2) xn * delta v1 v2 ^ 2 =
      evalP ((sumU a b v1.x v2.x).ev w / (v1.x - v2.x) ^ 2) xd * (sumV A B v1 v2).ev w := by
  simp only [ident, P2.mk.injEq] at h
  have hz : (v1.x - v2.x) ^ 2 ≠ 0 := pow_ne_zero _ (sub_ne_zero.2 hx)
  have e1 := hom_ev hw (sumU a b v1.x v2.x) hz xn
  have e2 := hom_ev hw (sumU a b v1.x v2.x) hz xd
  have e3 := P2.ev_mul hw (hom (v1.g * v2.g) (sumU a b v1.x v2.x) ((v1.x - v2.x) ^ 2) xd).1 (sumV A B v1 v2)
  have e4 : (hom (v1.g * v2.g) (sumU a b v1.x v2.x) ((v1.x - v2.x) ^ 2) xn).1.ev w * delta v1 v2 ^ 2 =
      (P2.mul (v1.g * v2.g) (hom (v1.g * v2.g) (sumU a b v1.x v2.x) ((v1.x - v2.x) ^ 2) xd).1 (sumV A B v1 v2)).ev w := by
    simp only [P2.ev]
    linear_combination h.1 + w * h.2
  rw [e3] at e4
  apply mul_left_cancel₀ (pow_ne_zero xn.length hz)
  rw [← mul_assoc, ← e1]
  rw [← hl] at e2
  rw [← mul_assoc, ← e2]
  linear_combination (v1.x - v2.x) ^ 2 * e4

/-! ### Degrees -/

/-- `h` is a polynomial function of degree at most `n`. -/
def PolyFun (n : ℕ) (h : F → F) : Prop := ∃ q : F[X], q.natDegree ≤ n ∧ ∀ x, q.eval x = h x

theorem PolyFun.mono {n m : ℕ} {h : F → F} (hn : PolyFun n h) (hm : n ≤ m) : PolyFun m h :=
  let ⟨q, h1, h2⟩ := hn; ⟨q, h1.trans hm, h2⟩

theorem polyFun_const (n : ℕ) (c : F) : PolyFun n fun _ => c := ⟨C c, by simp, by simp⟩

theorem polyFun_id : PolyFun 1 fun x : F => x := ⟨X, natDegree_X_le, by simp⟩

theorem PolyFun.add {n : ℕ} {h k : F → F} (h1 : PolyFun n h) (h2 : PolyFun n k) : PolyFun n fun x => h x + k x := by
  obtain ⟨q, a, b⟩ := h1
  obtain ⟨r, c, d⟩ := h2
  exact ⟨q + r, (natDegree_add_le _ _).trans (max_le a c), by simp [b, d]⟩

theorem PolyFun.sub {n : ℕ} {h k : F → F} (h1 : PolyFun n h) (h2 : PolyFun n k) : PolyFun n fun x => h x - k x := by
  obtain ⟨q, a, b⟩ := h1
  obtain ⟨r, c, d⟩ := h2
  exact ⟨q - r, (natDegree_sub_le _ _).trans (max_le a c), by simp [b, d]⟩

theorem PolyFun.mul {n m : ℕ} {h k : F → F} (h1 : PolyFun n h) (h2 : PolyFun m k) : PolyFun (n + m) fun x => h x * k x := by
  obtain ⟨q, a, b⟩ := h1
  obtain ⟨r, c, d⟩ := h2
  exact ⟨q * r, natDegree_mul_le.trans (Nat.add_le_add a c), by simp [b, d]⟩

theorem PolyFun.pow {n : ℕ} {h : F → F} (h1 : PolyFun n h) (k : ℕ) : PolyFun (k * n) fun x => h x ^ k := by
  obtain ⟨q, a, b⟩ := h1
  exact ⟨q ^ k, natDegree_pow_le.trans (Nat.mul_le_mul_left k a), by simp [b]⟩

theorem polyFun_evalP (cs : List F) : PolyFun (cs.length - 1) fun x => evalP x cs := by
  induction cs with
  | nil => exact polyFun_const 0 0
  | cons c cs ih =>
    cases cs with
    | nil => simpa [evalP] using polyFun_const 0 c
    | cons d ds =>
      have := (polyFun_const _ c).add (polyFun_id.mul ih)
      refine PolyFun.mono this ?_
      simp only [List.length_cons]; omega

theorem PolyFun.zero {n : ℕ} {h : F → F} (h1 : PolyFun n h) (s : Finset F) (hs : n < s.card) (hz : ∀ x ∈ s, h x = 0) (x : F) :
    h x = 0 := by
  obtain ⟨q, a, b⟩ := h1
  have : q = 0 := eq_zero_of_natDegree_lt_card_of_eval_eq_zero' q s (fun i hi => by rw [b, hz i hi]) (by omega)
  rw [← b, this, eval_zero]

/-- `s + t w` has degree at most `n`, where `w` counts for three halves. -/
def HasDeg (n : ℕ) (h : F → P2 F) : Prop :=
  PolyFun n (fun x => (h x).s) ∧ ((∀ x, (h x).t = 0) ∨ ∃ k, k + 2 ≤ n ∧ PolyFun k fun x => (h x).t)

theorem HasDeg.mono {n m : ℕ} {h : F → P2 F} (hn : HasDeg n h) (hm : n ≤ m) : HasDeg m h :=
  ⟨hn.1.mono hm, hn.2.imp id fun ⟨k, a, b⟩ => ⟨k, a.trans hm, b⟩⟩

theorem HasDeg.add {n : ℕ} {h k : F → P2 F} (h1 : HasDeg n h) (h2 : HasDeg n k) :
    HasDeg n fun x => ⟨(h x).s + (k x).s, (h x).t + (k x).t⟩ := by
  refine ⟨h1.1.add h2.1, ?_⟩
  rcases h1.2 with z | ⟨i, hi, pi⟩ <;> rcases h2.2 with z' | ⟨j, hj, pj⟩
  · left; intro x; simp [z x, z' x]
  · right; exact ⟨j, hj, by simpa [z] using pj⟩
  · right; exact ⟨i, hi, by simpa [z'] using pi⟩
  · right; exact ⟨max i j, by omega, (pi.mono (le_max_left _ _)).add (pj.mono (le_max_right _ _))⟩

theorem HasDeg.sub {n : ℕ} {h k : F → P2 F} (h1 : HasDeg n h) (h2 : HasDeg n k) :
    HasDeg n fun x => ⟨(h x).s - (k x).s, (h x).t - (k x).t⟩ := by
  refine ⟨h1.1.sub h2.1, ?_⟩
  rcases h1.2 with z | ⟨i, hi, pi⟩ <;> rcases h2.2 with z' | ⟨j, hj, pj⟩
  · left; intro x; simp [z x, z' x]
  · right; exact ⟨j, hj, by simpa [z] using (polyFun_const j (0 : F)).sub pj⟩
  · right; exact ⟨i, hi, by simpa [z'] using pi⟩
  · right; exact ⟨max i j, by omega, (pi.mono (le_max_left _ _)).sub (pj.mono (le_max_right _ _))⟩

theorem HasDeg.mul {n m : ℕ} {h k : F → P2 F} {g : F → F} (hg : PolyFun 3 g) (h1 : HasDeg n h) (h2 : HasDeg m k) :
    HasDeg (n + m) fun x => P2.mul (g x) (h x) (k x) := by
  constructor
  · refine (h1.1.mul h2.1).add ?_
    rcases h1.2 with z | ⟨i, hi, pi⟩
    · simpa [z] using polyFun_const _ (0 : F)
    rcases h2.2 with z | ⟨j, hj, pj⟩
    · simpa [z] using polyFun_const _ (0 : F)
    exact (hg.mul (pi.mul pj)).mono (by omega)
  · simp only [P2.mul]
    rcases h1.2 with z | ⟨i, hi, pi⟩ <;> rcases h2.2 with z' | ⟨j, hj, pj⟩
    · left; intro x; simp [z x, z' x]
    · right; exact ⟨n + j, by omega, by simpa [z] using h1.1.mul pj⟩
    · right; exact ⟨i + m, by omega, by simpa [z'] using pi.mul h2.1⟩
    · right
      exact ⟨max (n + j) (i + m), by omega, ((h1.1.mul pj).mono (le_max_left _ _)).add ((pi.mul h2.1).mono (le_max_right _ _))⟩

theorem hasDeg_of (n : ℕ) {h : F → F} (h1 : PolyFun n h) : HasDeg n fun x => ⟨h x, 0⟩ := ⟨h1, Or.inl fun _ => rfl⟩

theorem hasDeg_hom {g : F → F} (hg : PolyFun 3 g) {U : F → P2 F} (hU : HasDeg 2 U) {z : F → F} (hz : PolyFun 2 z)
    (cs : List F) : HasDeg (2 * (cs.length - 1)) fun x => (hom (g x) (U x) (z x) cs).1 := by
  induction cs with
  | nil => exact hasDeg_of _ (polyFun_const _ 0)
  | cons c cs ih =>
    have e : (fun x => (hom (g x) (U x) (z x) (c :: cs)).1) = fun x =>
        ⟨(c * z x ^ cs.length) + (P2.mul (g x) (U x) (hom (g x) (U x) (z x) cs).1).s,
          0 + (P2.mul (g x) (U x) (hom (g x) (U x) (z x) cs).1).t⟩ := by
      funext x
      simp only [hom, hom_snd, zero_add]
    rw [e]
    have h1 : PolyFun (2 * ((c :: cs).length - 1)) fun x => c * z x ^ cs.length :=
      ((polyFun_const 0 c).mul (hz.pow cs.length)).mono (by simp only [List.length_cons]; omega)
    refine (hasDeg_of _ h1).add (k := fun x => P2.mul (g x) (U x) (hom (g x) (U x) (z x) cs).1) ?_
    cases cs with
    | nil =>
      have : (fun x => P2.mul (g x) (U x) (hom (g x) (U x) (z x) ([] : List F)).1) = fun _ => ⟨0, 0⟩ := by
        funext x; simp [hom, P2.mul]
      rw [this]
      exact hasDeg_of _ (polyFun_const _ 0)
    | cons d ds =>
      refine (HasDeg.mul hg hU ih).mono ?_
      simp only [List.length_cons]; omega

/-- The values of the polynomials at `x`. -/
def vals (a b : F) (xn qs yn : List F) (x : F) : Vals F :=
  ⟨x, evalP x xn, evalP x qs, evalP x yn, x ^ 3 + a * x + b⟩

variable {a b A B : F} {xn xd qs yn : List F} {n : ℕ}

theorem hasDeg_ident (h1 : xn.length - 1 ≤ n) (h2 : xd.length - 1 ≤ n) (h3 : 2 * (qs.length - 1) ≤ n)
    (h4 : yn.length - 1 + (qs.length - 1) + 2 ≤ 2 * n) (v : Vals F) :
    HasDeg (4 * n) fun x => ident a b A B xn xd (vals a b xn qs yn x) v := by
  have pn : PolyFun n fun x => evalP x xn := (polyFun_evalP xn).mono h1
  have pq : PolyFun (qs.length - 1) fun x => evalP x qs := polyFun_evalP qs
  have pq2 : PolyFun n fun x => evalP x qs ^ 2 := (pq.pow 2).mono h3
  have pm : PolyFun (yn.length - 1) fun x => evalP x yn := polyFun_evalP yn
  have cst : ∀ {k : ℕ} (c : F), PolyFun k fun _ => c := fun c => polyFun_const _ c
  have pg : PolyFun 3 fun x : F => (x ^ 3 + a * x + b) * v.g :=
    ((((polyFun_id.pow 3).mono (m := 3) (by omega)).add (((cst (k := 0) a).mul polyFun_id).mono (by omega))).add (cst b)).mul
      (cst (k := 0) v.g) |>.mono (by omega)
  have pU : HasDeg 2 fun x => sumU a b x v.x := by
    refine ⟨?_, Or.inr ⟨0, by omega, cst _⟩⟩
    exact ((((polyFun_id.mul (cst (k := 0) v.x)).add (cst (k := 1) a)).mul (polyFun_id.add (cst v.x))).mono (by omega)).add (cst _)
  have pz : PolyFun 2 fun x : F => (x - v.x) ^ 2 := ((polyFun_id.sub (cst v.x)).pow 2).mono (by omega)
  have pV : HasDeg (2 * n) fun x => sumV A B (vals a b xn qs yn x) v := by
    constructor
    · have e1 : PolyFun n fun x => evalP x xn * v.n + A * (evalP x qs ^ 2 * v.q ^ 2) :=
        ((pn.mul (cst (k := 0) v.n)).add ((cst (k := 0) A).mul (pq2.mul (cst (k := 0) (v.q ^ 2))) |>.mono (by omega)))
      have e2 : PolyFun n fun x => evalP x xn * v.q ^ 2 + v.n * evalP x qs ^ 2 :=
        (pn.mul (cst (k := 0) (v.q ^ 2))).add (((cst (k := 0) v.n).mul pq2).mono (by omega))
      have e3 : PolyFun (2 * n) fun x => (evalP x qs ^ 2 * v.q ^ 2) ^ 2 := (pq2.mul (cst (k := 0) (v.q ^ 2))).pow 2
      exact ((e1.mul e2).mono (by omega)).add (((cst (k := 0) (2 * B)).mul e3).mono (by omega))
    · refine Or.inr ⟨yn.length - 1 + (qs.length - 1), h4, ?_⟩
      exact ((cst (k := 0) (-2)).mul ((pm.mul (cst (k := 0) v.m)).mul (pq.mul (cst (k := 0) v.q)))).mono (by omega)
  have pd : PolyFun (2 * n) fun x => delta (vals a b xn qs yn x) v ^ 2 := by
    refine PolyFun.pow ?_ 2
    exact (((cst (k := 0) v.n).mul pq2).mono (by omega)).sub ((pn.mul (cst (k := 0) (v.q ^ 2))).mono (by omega))
  have hn := (hasDeg_hom pg pU pz xn).mono (m := 2 * n) (by omega)
  have hd := (hasDeg_hom pg pU pz xd).mono (m := 2 * n) (by omega)
  have f1 : HasDeg (4 * n) fun x => ⟨((hom ((x ^ 3 + a * x + b) * v.g) (sumU a b x v.x) ((x - v.x) ^ 2) xn).1).s *
        delta (vals a b xn qs yn x) v ^ 2,
      ((hom ((x ^ 3 + a * x + b) * v.g) (sumU a b x v.x) ((x - v.x) ^ 2) xn).1).t * delta (vals a b xn qs yn x) v ^ 2⟩ := by
    constructor
    · exact (hn.1.mul pd).mono (by omega)
    · rcases hn.2 with z | ⟨k, hk, pk⟩
      · left; intro x; simp [z x]
      · right; exact ⟨k + 2 * n, by omega, pk.mul pd⟩
  exact f1.sub ((HasDeg.mul pg hd pV).mono (by omega))

/-- The identity holds everywhere if it does on a grid. -/
theorem ident_all (h1 : xn.length - 1 ≤ n) (h2 : xd.length - 1 ≤ n) (h3 : 2 * (qs.length - 1) ≤ n)
    (h4 : yn.length - 1 + (qs.length - 1) + 2 ≤ 2 * n) (s : Finset F) (hs : 4 * n < s.card)
    (h : ∀ c ∈ s, ∀ d ∈ s, ident a b A B xn xd (vals a b xn qs yn c) (vals a b xn qs yn d) = ⟨0, 0⟩) (x y : F) :
    ident a b A B xn xd (vals a b xn qs yn x) (vals a b xn qs yn y) = ⟨0, 0⟩ := by
  have key : ∀ v : Vals F, (∀ c ∈ s, ident a b A B xn xd (vals a b xn qs yn c) v = ⟨0, 0⟩) →
      ∀ x, ident a b A B xn xd (vals a b xn qs yn x) v = ⟨0, 0⟩ := by
    intro v hv x
    have hd := hasDeg_ident (A := A) (B := B) (a := a) (b := b) h1 h2 h3 h4 v
    have e1 : (ident a b A B xn xd (vals a b xn qs yn x) v).s = 0 := hd.1.zero s hs (fun c hc => by simp only [hv c hc]) x
    have e2 : (ident a b A B xn xd (vals a b xn qs yn x) v).t = 0 := by
      rcases hd.2 with z | ⟨k, hk, pk⟩
      · exact z x
      · exact pk.zero s (by omega) (fun c hc => by simp only [hv c hc]) x
    revert e1 e2
    generalize ident a b A B xn xd (vals a b xn qs yn x) v = r
    obtain ⟨r1, r2⟩ := r
    rintro rfl rfl
    rfl
  refine key _ (fun c hc => ?_) x
  rw [ident_symm]
  exact key _ (fun d hd => h d hd c hc) y

end field

/-! ### Evaluation -/

/-- Product modulo `p`. -/
def mulN (p g : ℕ) (a b : P2 ℕ) : P2 ℕ := ⟨(a.s * b.s + g * (a.t * b.t % p)) % p, (a.s * b.t + a.t * b.s) % p⟩

/-- `hom` modulo `p`. -/
def homN (p g : ℕ) (U : P2 ℕ) (z : ℕ) : List ℕ → P2 ℕ × ℕ
  | [] => (⟨0, 0⟩, 1)
  | c :: cs =>
    let r := homN p g U z cs
    let u := mulN p g U r.1
    (⟨(c * r.2 + u.s) % p, u.t⟩, r.2 * z % p)

/-- `ident` modulo `p`, tested; `d1` and `d2` are the squares of the denominators. -/
def identN (p a b A B : ℕ) (xn xd : List ℕ) (u v : Vals ℕ) (q1 q2 : ℕ) : Bool :=
  let g := u.g * v.g % p
  let U : P2 ℕ := ⟨((u.x * v.x + a) * (u.x + v.x) + 2 * b) % p, p - 2⟩
  let dx := u.x + (p - v.x)
  let z := dx * dx % p
  let n1q2 := u.n * q2 % p
  let n2q1 := v.n * q1 % p
  let qq := q1 * q2 % p
  let V : P2 ℕ := ⟨((u.n * v.n + A * qq) % p * (n1q2 + n2q1) + 2 * B * (qq * qq % p)) % p,
    (p - 2) * (u.m * v.m % p * (u.q * v.q % p) % p) % p⟩
  let dl := n2q1 + (p - n1q2)
  let d2 := dl * dl % p
  let hn := (homN p g U z xn).1
  let hd := mulN p g (homN p g U z xd).1 V
  Nat.beq (hn.s * d2 % p) hd.s && Nat.beq (hn.t * d2 % p) hd.t

/-- Horner's rule modulo `p`. -/
def hornN (p c : ℕ) : List ℕ → ℕ
  | [] => 0
  | k :: ks => (k + c * hornN p c ks) % p

/-- The table entry for `c` is right. -/
def tabOK (p a b : ℕ) (xn qs yn : List ℕ) (c : ℕ) (t : Vals ℕ × ℕ) : Bool :=
  Nat.beq t.1.x c && Nat.beq (hornN p c xn) t.1.n && Nat.beq (hornN p c qs) t.1.q && Nat.beq (hornN p c yn) t.1.m &&
    Nat.beq ((c * c * c + a * c + b) % p) t.1.g && Nat.beq (t.1.q * t.1.q % p) t.2

/-- The table has the entries for `c`, `c + 1`, ... -/
def tableOK (p a b : ℕ) (xn qs yn : List ℕ) : ℕ → List (Vals ℕ × ℕ) → Bool
  | _, [] => true
  | c, t :: ts => tabOK p a b xn qs yn c t && tableOK p a b xn qs yn (c + 1) ts

/-- The identity holds on all pairs of entries of the table. -/
def gridOK (p a b A B : ℕ) (xn xd : List ℕ) : List (Vals ℕ × ℕ) → Bool
  | [] => true
  | t :: ts => identN p a b A B xn xd t.1 t.1 t.2 t.2 && ts.all (fun u => identN p a b A B xn xd t.1 u.1 t.2 u.2) &&
      gridOK p a b A B xn xd ts

section
variable {p : ℕ} [Fact p.Prime]

/-- Reduction. -/
def P2.cast (a : P2 ℕ) : P2 (ZMod p) := ⟨a.s, a.t⟩

def Vals.cast (v : Vals ℕ) : Vals (ZMod p) := ⟨v.x, v.n, v.q, v.m, v.g⟩

theorem cast_mulN (g : ℕ) (a b : P2 ℕ) : (mulN p g a b).cast = P2.mul (g : ZMod p) a.cast b.cast := by
  simp only [mulN, P2.cast, P2.mul, ZMod.natCast_mod, Nat.cast_add, Nat.cast_mul]

theorem cast_homN (g : ℕ) (U : P2 ℕ) (z : ℕ) (cs : List ℕ) :
    (homN p g U z cs).1.cast = (hom (g : ZMod p) U.cast z (cs.map Nat.cast)).1 ∧
    (((homN p g U z cs).2 : ℕ) : ZMod p) = (hom (g : ZMod p) U.cast z (cs.map Nat.cast)).2 := by
  induction cs with
  | nil => simp [homN, hom, P2.cast]
  | cons c cs ih =>
    have e := cast_mulN (p := p) g U (homN p g U z cs).1
    rw [ih.1] at e
    simp only [homN, hom, List.map_cons, ← ih.2, ← e]
    simp only [P2.cast, ZMod.natCast_mod, Nat.cast_add, Nat.cast_mul, and_self]

theorem identN_spec {a b A B : ℕ} {xn xd : List ℕ} {u v : Vals ℕ} {q1 q2 : ℕ} (h2 : 2 ≤ p) (hv : v.x ≤ p)
    (hq1 : (q1 : ZMod p) = (u.q : ZMod p) ^ 2) (hq2 : (q2 : ZMod p) = (v.q : ZMod p) ^ 2)
    (h : identN p a b A B xn xd u v q1 q2 = true) :
    ident (a : ZMod p) b A B (xn.map Nat.cast) (xd.map Nat.cast) u.cast v.cast = ⟨0, 0⟩ := by
  have hp : 0 < p := by omega
  simp only [identN, Bool.and_eq_true, Nat.beq_eq] at h
  obtain ⟨e1, e2⟩ := h
  have e1 := congrArg (Nat.cast : ℕ → ZMod p) e1
  have e2 := congrArg (Nat.cast : ℕ → ZMod p) e2
  set U : P2 ℕ := ⟨((u.x * v.x + a) * (u.x + v.x) + 2 * b) % p, p - 2⟩ with hU
  set V : P2 ℕ := ⟨((u.n * v.n + A * (q1 * q2 % p)) % p * (u.n * q2 % p + v.n * q1 % p) +
      2 * B * (q1 * q2 % p * (q1 * q2 % p) % p)) % p,
    (p - 2) * (u.m * v.m % p * (u.q * v.q % p) % p) % p⟩ with hV
  have cU : U.cast = sumU (a : ZMod p) b (u.cast (p := p)).x (v.cast (p := p)).x := by
    rw [hU]
    simp only [P2.cast, sumU, Vals.cast, ZMod.natCast_mod, Nat.cast_sub h2, ZMod.natCast_self]
    push_cast
    simp
  have cV : V.cast = sumV (A : ZMod p) B (u.cast (p := p)) (v.cast (p := p)) := by
    rw [hV]
    simp only [P2.cast, sumV, Vals.cast, ZMod.natCast_mod, Nat.cast_sub h2, ZMod.natCast_self, Nat.cast_add, Nat.cast_mul, hq1, hq2,
      P2.mk.injEq]
    constructor <;> (push_cast; ring)
  have cg : ((u.g * v.g % p : ℕ) : ZMod p) = (u.cast (p := p)).g * (v.cast (p := p)).g := by
    simp [Vals.cast, ZMod.natCast_mod]
  have cz : (((u.x + (p - v.x)) * (u.x + (p - v.x)) % p : ℕ) : ZMod p) = ((u.cast (p := p)).x - (v.cast (p := p)).x) ^ 2 := by
    simp only [ZMod.natCast_mod, Nat.cast_mul, Nat.cast_add, Nat.cast_sub hv, ZMod.natCast_self, Vals.cast]
    ring
  have hle : u.n * q2 % p ≤ p := (Nat.mod_lt _ hp).le
  have cd : (((v.n * q1 % p + (p - u.n * q2 % p)) * (v.n * q1 % p + (p - u.n * q2 % p)) % p : ℕ) : ZMod p) =
      delta (u.cast (p := p)) (v.cast (p := p)) ^ 2 := by
    simp only [ZMod.natCast_mod, Nat.cast_mul, Nat.cast_add, Nat.cast_sub hle, ZMod.natCast_self, Vals.cast, delta, hq1, hq2]
    ring
  have cn := (cast_homN (p := p) (u.g * v.g % p) U ((u.x + (p - v.x)) * (u.x + (p - v.x)) % p) xn).1
  have cdd := (cast_homN (p := p) (u.g * v.g % p) U ((u.x + (p - v.x)) * (u.x + (p - v.x)) % p) xd).1
  have cm := cast_mulN (p := p) (u.g * v.g % p) (homN p (u.g * v.g % p) U ((u.x + (p - v.x)) * (u.x + (p - v.x)) % p) xd).1 V
  rw [cg, cz, cU] at cn cdd
  rw [cdd, cV, cg] at cm
  rw [ZMod.natCast_mod, Nat.cast_mul, cd] at e1 e2
  simp only [ident, ← cn, ← cm]
  simp only [P2.cast, P2.mk.injEq, e1, e2, sub_self, and_self]

theorem hornN_cast (c : ℕ) (cs : List ℕ) : ((hornN p c cs : ℕ) : ZMod p) = evalP (c : ZMod p) (cs.map Nat.cast) := by
  induction cs with
  | nil => simp [hornN, evalP]
  | cons k ks ih => simp [hornN, evalP, ZMod.natCast_mod, ih]

theorem tabOK_spec {a b : ℕ} {xn qs yn : List ℕ} {c : ℕ} {t : Vals ℕ × ℕ} (h : tabOK p a b xn qs yn c t = true) :
    t.1.x = c ∧ t.1.cast = vals (a : ZMod p) b (xn.map Nat.cast) (qs.map Nat.cast) (yn.map Nat.cast) c ∧
      ((t.2 : ℕ) : ZMod p) = (t.1.q : ZMod p) ^ 2 := by
  simp only [tabOK, Bool.and_eq_true, Nat.beq_eq] at h
  obtain ⟨⟨⟨⟨⟨h1, h2⟩, h3⟩, h4⟩, h5⟩, h6⟩ := h
  refine ⟨h1, ?_, ?_⟩
  · simp only [Vals.cast, vals, ← h1, ← hornN_cast]
    simp only [h1, h2, h3, h4, ← h5, ZMod.natCast_mod, Vals.mk.injEq, true_and]
    push_cast; ring
  · rw [← h6, ZMod.natCast_mod]; push_cast; ring

theorem tableOK_spec {a b : ℕ} {xn qs yn : List ℕ} {c : ℕ} {ts : List (Vals ℕ × ℕ)}
    (h : tableOK p a b xn qs yn c ts = true) : (∀ t ∈ ts, ∃ d, tabOK p a b xn qs yn d t = true ∧ d < c + ts.length) ∧
      ∀ d, c ≤ d → d < c + ts.length → ∃ t ∈ ts, tabOK p a b xn qs yn d t = true := by
  induction ts generalizing c with
  | nil => simp
  | cons t ts ih =>
    simp only [tableOK, Bool.and_eq_true] at h
    obtain ⟨i1, i2⟩ := ih h.2
    constructor
    · intro u hu
      rcases List.mem_cons.1 hu with rfl | hu
      · exact ⟨c, h.1, by simp⟩
      · obtain ⟨d, hd, hl⟩ := i1 u hu
        exact ⟨d, hd, by simp only [List.length_cons]; omega⟩
    · intro d hd hl
      rcases Nat.eq_or_lt_of_le hd with rfl | hd
      · exact ⟨t, by simp, h.1⟩
      · obtain ⟨u, hu, ho⟩ := i2 d hd (by simp only [List.length_cons] at hl; omega)
        exact ⟨u, List.mem_cons_of_mem _ hu, ho⟩

theorem gridOK_spec {a b A B : ℕ} {xn xd : List ℕ} {ts : List (Vals ℕ × ℕ)} (h : gridOK p a b A B xn xd ts = true) :
    ∀ t ∈ ts, ∀ u ∈ ts, identN p a b A B xn xd t.1 u.1 t.2 u.2 = true ∨ identN p a b A B xn xd u.1 t.1 u.2 t.2 = true := by
  induction ts with
  | nil => simp
  | cons s ts ih =>
    simp only [gridOK, Bool.and_eq_true, List.all_eq_true] at h
    obtain ⟨⟨h1, h2⟩, h3⟩ := h
    intro t ht u hu
    rcases List.mem_cons.1 ht with rfl | ht' <;> rcases List.mem_cons.1 hu with rfl | hu'
    · exact Or.inl h1
    · exact Or.inl (h2 u hu')
    · exact Or.inr (h2 t ht')
    · exact ih h3 t ht' u hu'

/-- The identity, from the table. -/
theorem ident_of_grid {a b A B n : ℕ} {xn xd qs yn : List ℕ} {ts : List (Vals ℕ × ℕ)} (hp : ts.length ≤ p) (h2 : 2 ≤ p)
    (h1 : xn.length - 1 ≤ n) (h2' : xd.length - 1 ≤ n) (h3 : 2 * (qs.length - 1) ≤ n)
    (h4 : yn.length - 1 + (qs.length - 1) + 2 ≤ 2 * n) (hs : 4 * n < ts.length) (ht : tableOK p a b xn qs yn 0 ts = true)
    (hg : gridOK p a b A B xn xd ts = true) (x y : ZMod p) :
    ident (a : ZMod p) b A B (xn.map Nat.cast) (xd.map Nat.cast)
      (vals a b (xn.map Nat.cast) (qs.map Nat.cast) (yn.map Nat.cast) x)
      (vals a b (xn.map Nat.cast) (qs.map Nat.cast) (yn.map Nat.cast) y) = ⟨0, 0⟩ := by
  obtain ⟨-, hT⟩ := tableOK_spec ht
  have hG := gridOK_spec hg
  classical
  let s : Finset (ZMod p) := (Finset.range ts.length).image Nat.cast
  have hc : s.card = ts.length := by
    rw [Finset.card_image_of_injOn, Finset.card_range]
    intro i hi j hj hij
    simp only [Finset.coe_range, Set.mem_Iio] at hi hj
    have := (ZMod.natCast_eq_natCast_iff' i j p).1 hij
    rwa [Nat.mod_eq_of_lt (by omega), Nat.mod_eq_of_lt (by omega)] at this
  refine ident_all (n := n) (by simpa using h1) (by simpa using h2') (by simpa using h3) (by simpa using h4) s (by omega) ?_ x y
  have key : ∀ t ∈ ts, ∀ u ∈ ts, ∀ c < ts.length, ∀ d < ts.length, tabOK p a b xn qs yn c t = true → tabOK p a b xn qs yn d u = true →
      identN p a b A B xn xd t.1 u.1 t.2 u.2 = true → ident (a : ZMod p) b A B (xn.map Nat.cast) (xd.map Nat.cast)
      (vals a b (xn.map Nat.cast) (qs.map Nat.cast) (yn.map Nat.cast) c)
      (vals a b (xn.map Nat.cast) (qs.map Nat.cast) (yn.map Nat.cast) d) = ⟨0, 0⟩ := by
    intro t _ u _ c hc d hd hct hdu hi
    obtain ⟨-, k2, k3⟩ := tabOK_spec hct
    obtain ⟨l1, l2, l3⟩ := tabOK_spec hdu
    rw [← k2, ← l2]
    exact identN_spec h2 (by omega) k3 l3 hi
  intro c' hc' d' hd'
  obtain ⟨c, hc1, rfl⟩ := Finset.mem_image.1 hc'
  obtain ⟨d, hd1, rfl⟩ := Finset.mem_image.1 hd'
  rw [Finset.mem_range] at hc1 hd1
  obtain ⟨t, htm, hto⟩ := hT c (Nat.zero_le _) (by omega)
  obtain ⟨u, hum, huo⟩ := hT d (Nat.zero_le _) (by omega)
  rcases hG t htm u hum with hi | hi
  · exact key t htm u hum c hc1 d hd1 hto huo hi
  · rw [ident_symm]
    exact key u hum t htm d hd1 c hc1 huo hto hi

end

end Redox.IsoGrid
