import Mathlib.Algebra.QuadraticDiscriminant
import Mathlib.Algebra.Polynomial.Roots
import Mathlib.Data.Set.Card
import Mathlib.Tactic.LinearCombination
import Mathlib.Tactic.FieldSimp
import Mathlib.Tactic.Ring
import Verif.Spec.Maps

/-!
# Preimages of the simplified SWU and the Shallue-van de Woestijne map over `ZMod p`
-/

namespace Redox.Fibres

open Spec Polynomial

variable {p : ℕ} [Fact p.Prime]

theorem quad {F : Type*} [Field F] (a b c : F) (h : a ≠ 0 ∨ b ≠ 0 ∨ c ≠ 0) :
    {t : F | a * t ^ 2 + b * t + c = 0}.encard ≤ 2 := by
  classical
  set P : F[X] := C a * X ^ 2 + C b * X + C c with hP
  have hP0 : P ≠ 0 := by
    intro h0
    have h2 : P.coeff 2 = 0 := by rw [h0]; simp
    have h1 : P.coeff 1 = 0 := by rw [h0]; simp
    have h00 : P.coeff 0 = 0 := by rw [h0]; simp
    simp [hP, coeff_X, coeff_C, coeff_X_pow] at h2 h1 h00
    tauto
  have hsub : {t : F | a * t ^ 2 + b * t + c = 0} ⊆ ↑(P.roots.toFinset) := by
    intro t ht
    rw [Finset.mem_coe, Multiset.mem_toFinset, mem_roots hP0, IsRoot.def]
    simpa [hP] using ht
  refine (Set.encard_le_encard hsub).trans ?_
  rw [Set.encard_coe_eq_coe_finsetCard]
  have h1 : P.roots.toFinset.card ≤ 2 :=
    (Multiset.toFinset_card_le _).trans ((card_roots' P).trans (natDegree_quadratic_le))
  exact_mod_cast h1

/-- Elements with a given parity are determined by their squares. -/
theorem sq_inj (hpar : ∀ y : ZMod p, y ≠ 0 → (-y).val % 2 ≠ y.val % 2) {u v : ZMod p} (h : u.val % 2 = v.val % 2)
    (hs : u ^ 2 = v ^ 2) : u = v := by
  rcases sq_eq_sq_iff_eq_or_eq_neg.1 hs with h' | h'
  · exact h'
  · by_cases hv : v = 0
    · rw [h', hv, neg_zero]
    · rw [h'] at h; exact absurd h (hpar v hv)

/-- A quadratic in `k u²` has at most two roots `u` of a given parity. -/
theorem quad_sq (hpar : ∀ y : ZMod p, y ≠ 0 → (-y).val % 2 ≠ y.val % 2) (n : ℕ) (k a b c : ZMod p) (hk : k ≠ 0)
    (h : a ≠ 0 ∨ b ≠ 0 ∨ c ≠ 0) :
    {u : ZMod p | u.val % 2 = n ∧ a * (k * u ^ 2) ^ 2 + b * (k * u ^ 2) + c = 0}.encard ≤ 2 := by
  refine le_trans (Set.encard_le_encard_of_injOn (t := {t : ZMod p | a * t ^ 2 + b * t + c = 0}) (f := fun u => k * u ^ 2)
    (fun u hu => hu.2) ?_) (quad a b c h)
  intro u hu v hv huv
  exact sq_inj hpar (hu.1.trans hv.1.symm) (mul_left_cancel₀ hk huv)

theorem sswu_cases {a b z u x1 : ZMod p} (h : x1 = if (z * u ^ 2) ^ 2 + z * u ^ 2 = 0 then b / (z * a)
      else (-b / a) * (1 + 1 / ((z * u ^ 2) ^ 2 + z * u ^ 2))) :
    (IsSquare (rhs a b x1) ∧ sswuX a b z u = x1) ∨ (¬ IsSquare (rhs a b x1) ∧ sswuX a b z u = z * u ^ 2 * x1) := by
  by_cases hs : IsSquare (rhs a b x1)
  · refine Or.inl ⟨hs, ?_⟩
    subst h; exact if_pos hs
  · refine Or.inr ⟨hs, ?_⟩
    subst h; exact if_neg hs

/-- Simplified SWU: the inputs of a given parity with a given abscissa. -/
theorem sswu (hpar : ∀ y : ZMod p, y ≠ 0 → (-y).val % 2 ≠ y.val % 2) {a b z x : ZMod p} (n : ℕ) (ha : a ≠ 0) (hb : b ≠ 0)
    (hz : z ≠ 0) (hsq : IsSquare (rhs a b (b / (z * a)))) :
    {u : ZMod p | u.val % 2 = n ∧ sswuX a b z u = x}.encard ≤ 6 ∧
      (x ≠ b / (z * a) → {u : ZMod p | u.val % 2 = n ∧ sswuX a b z u = x}.encard ≤ 4) := by
  have h1 := quad_sq hpar n z (a * x + b) (a * x + b) b hz (Or.inr (Or.inr hb))
  have h2 := quad_sq hpar n z b (a * x + b) (a * x + b) hz (Or.inl hb)
  have h3 := quad_sq hpar n z 1 1 0 hz (Or.inl one_ne_zero)
  set S1 := {u : ZMod p | u.val % 2 = n ∧ (a * x + b) * (z * u ^ 2) ^ 2 + (a * x + b) * (z * u ^ 2) + b = 0}
  set S2 := {u : ZMod p | u.val % 2 = n ∧ b * (z * u ^ 2) ^ 2 + (a * x + b) * (z * u ^ 2) + (a * x + b) = 0}
  set S3 := {u : ZMod p | u.val % 2 = n ∧ 1 * (z * u ^ 2) ^ 2 + 1 * (z * u ^ 2) + 0 = 0}
  have key : ∀ u : ZMod p, u.val % 2 = n → sswuX a b z u = x → u ∈ S1 ∪ S2 ∨ (u ∈ S3 ∧ x = b / (z * a)) := by
    intro u hu hx
    by_cases ht : (z * u ^ 2) ^ 2 + z * u ^ 2 = 0
    · right
      refine ⟨⟨hu, by linear_combination ht⟩, ?_⟩
      rcases sswu_cases (a := a) (b := b) (z := z) (u := u) (x1 := b / (z * a)) (by rw [if_pos ht]) with h | h
      · rw [← hx, h.2]
      · exact absurd hsq h.1
    · left
      have ht1 : z * u ^ 2 + 1 ≠ 0 := fun h => ht (by linear_combination (z * u ^ 2) * h)
      rcases sswu_cases (a := a) (b := b) (z := z) (u := u)
        (x1 := (-b / a) * (1 + 1 / ((z * u ^ 2) ^ 2 + z * u ^ 2))) (by rw [if_neg ht]) with h | h
      · refine Or.inl ⟨hu, ?_⟩
        rw [← hx, h.2]
        generalize (z * u ^ 2) = t at ht ht1
        have ht0 : t ≠ 0 := fun h => ht (by rw [h]; ring)
        have e : t ^ 2 + t = t * (t + 1) := by ring
        rw [e]
        field_simp
        ring
      · refine Or.inr ⟨hu, ?_⟩
        rw [← hx, h.2]
        generalize (z * u ^ 2) = t at ht ht1
        have ht0 : t ≠ 0 := fun h => ht (by rw [h]; ring)
        have e : t ^ 2 + t = t * (t + 1) := by ring
        rw [e]
        field_simp
        ring
  have h12 : (S1 ∪ S2).encard ≤ 4 := (Set.encard_union_le _ _).trans ((add_le_add h1 h2).trans (by norm_num))
  have h123 : (S1 ∪ S2 ∪ S3).encard ≤ 6 := (Set.encard_union_le _ _).trans ((add_le_add h12 h3).trans (by norm_num))
  refine ⟨(Set.encard_le_encard ?_).trans h123, fun hx => (Set.encard_le_encard ?_).trans h12⟩
  · rintro u ⟨hu, hux⟩
    rcases key u hu hux with h | h
    · exact Or.inl h
    · exact Or.inr h.1
  · rintro u ⟨hu, hux⟩
    rcases key u hu hux with h | h
    · exact h
    · exact absurd h.2 hx

/-- Shallue-van de Woestijne: the inputs of a given parity with a given abscissa. -/
theorem svdw (hpar : ∀ y : ZMod p, y ≠ 0 → (-y).val % 2 ≠ y.val % 2) (h2 : (2 : ZMod p) ≠ 0) {a b z c x : ZMod p} (n : ℕ)
    (hg : rhs a b z ≠ 0) (hh : 3 * z ^ 2 + 4 * a ≠ 0) (hc : c ^ 2 = -rhs a b z * (3 * z ^ 2 + 4 * a)) :
    {u : ZMod p | u.val % 2 = n ∧ svdwX a b z c u = x}.encard ≤ 8 ∧
      (x ≠ -z / 2 → x ≠ z → {u : ZMod p | u.val % 2 = n ∧ svdwX a b z c u = x}.encard ≤ 6) := by
  set g := rhs a b z with hgdef
  set k := -4 * g / (3 * z ^ 2 + 4 * a) with hk
  have hc0 : c ≠ 0 := by
    rintro rfl
    exact mul_ne_zero (neg_ne_zero.2 hg) hh (by rw [← hc]; ring)
  have h4 : (4 : ZMod p) ≠ 0 := by
    have : (4 : ZMod p) = 2 * 2 := by norm_num
    rw [this]; exact mul_ne_zero h2 h2
  have hk0 : k ≠ 0 := div_ne_zero (mul_ne_zero (neg_ne_zero.2 h4) hg) hh
  have h1 := quad ((x + z / 2) * g) c (x + z / 2) (Or.inr (Or.inl hc0))
  have h2' := quad ((x + z / 2) * g) (-c) (x + z / 2) (Or.inr (Or.inl (neg_ne_zero.2 hc0)))
  have h3 := quad_sq hpar n g (x - z - k) (-2 * (x - z + k)) (x - z - k) hg (by
    by_contra h
    push Not at h
    have e1 : x - z + k = 0 := (mul_eq_zero.1 h.2.1).resolve_left (neg_ne_zero.2 h2)
    exact hk0 ((mul_eq_zero.1 (show (2 : ZMod p) * k = 0 by linear_combination e1 - h.1)).resolve_left h2))
  have h5 := quad_sq hpar n g (-1) 0 1 hg (Or.inr (Or.inr one_ne_zero))
  set S1 := {u : ZMod p | (x + z / 2) * g * u ^ 2 + c * u + (x + z / 2) = 0}
  set S2 := {u : ZMod p | (x + z / 2) * g * u ^ 2 + -c * u + (x + z / 2) = 0}
  set S3 := {u : ZMod p | u.val % 2 = n ∧ (x - z - k) * (g * u ^ 2) ^ 2 + -2 * (x - z + k) * (g * u ^ 2) + (x - z - k) = 0}
  set S4 := {u : ZMod p | u.val % 2 = n ∧ -1 * (g * u ^ 2) ^ 2 + 0 * (g * u ^ 2) + 1 = 0}
  have key : ∀ u : ZMod p, u.val % 2 = n → svdwX a b z c u = x →
      u ∈ S1 ∪ S2 ∪ S3 ∨ (u ∈ S4 ∧ (x = -z / 2 ∨ x = z)) := by
    intro u hu hx
    unfold svdwX at hx
    simp only [← hgdef, ← hk] at hx
    by_cases hvw : (1 - u ^ 2 * g) * (1 + u ^ 2 * g) = 0
    · right
      refine ⟨⟨hu, by linear_combination hvw⟩, ?_⟩
      rw [hvw, div_zero] at hx
      simp only [mul_zero, zero_mul, sub_zero, add_zero, ne_eq, OfNat.ofNat_ne_zero, not_false_eq_true, zero_pow] at hx
      split_ifs at hx
      · exact Or.inl hx.symm
      · exact Or.inl hx.symm
      · exact Or.inr hx.symm
    · left
      obtain ⟨hv, hw⟩ := mul_ne_zero_iff.1 hvw
      split_ifs at hx
      · refine Or.inl (Or.inl ?_)
        change (x + z / 2) * g * u ^ 2 + c * u + (x + z / 2) = 0
        rw [← hx]; field_simp; ring
      · refine Or.inl (Or.inr ?_)
        change (x + z / 2) * g * u ^ 2 + -c * u + (x + z / 2) = 0
        rw [← hx]; field_simp; ring
      · refine Or.inr ⟨hu, ?_⟩
        have e : (x - z) * (1 - u ^ 2 * g) ^ 2 = k * (1 + u ^ 2 * g) ^ 2 := by
          rw [← hx]; field_simp; ring
        linear_combination e
  have h12 : (S1 ∪ S2).encard ≤ 4 := (Set.encard_union_le _ _).trans ((add_le_add h1 h2').trans (by norm_num))
  have h123 : (S1 ∪ S2 ∪ S3).encard ≤ 6 := (Set.encard_union_le _ _).trans ((add_le_add h12 h3).trans (by norm_num))
  have h1234 : (S1 ∪ S2 ∪ S3 ∪ S4).encard ≤ 8 := (Set.encard_union_le _ _).trans ((add_le_add h123 h5).trans (by norm_num))
  refine ⟨(Set.encard_le_encard ?_).trans h1234, fun hx1 hx2 => (Set.encard_le_encard ?_).trans h123⟩
  · rintro u ⟨hu, hux⟩
    rcases key u hu hux with h | h
    · exact Or.inl h
    · exact Or.inr h.1
  · rintro u ⟨hu, hux⟩
    rcases key u hu hux with h | h
    · exact h
    · rcases h.2 with h | h
      · exact absurd h hx1
      · exact absurd h hx2

/-- A quadratic in `k u²` has at most four roots `u`. -/
theorem quad_sq' (hpar : ∀ y : ZMod p, y ≠ 0 → (-y).val % 2 ≠ y.val % 2) (k a b c : ZMod p) (hk : k ≠ 0)
    (h : a ≠ 0 ∨ b ≠ 0 ∨ c ≠ 0) : {u : ZMod p | a * (k * u ^ 2) ^ 2 + b * (k * u ^ 2) + c = 0}.encard ≤ 4 := by
  have hsub : {u : ZMod p | a * (k * u ^ 2) ^ 2 + b * (k * u ^ 2) + c = 0} ⊆
      {u : ZMod p | u.val % 2 = 0 ∧ a * (k * u ^ 2) ^ 2 + b * (k * u ^ 2) + c = 0} ∪
      {u : ZMod p | u.val % 2 = 1 ∧ a * (k * u ^ 2) ^ 2 + b * (k * u ^ 2) + c = 0} := by
    intro u hu
    rcases Nat.mod_two_eq_zero_or_one u.val with h | h
    · exact Or.inl ⟨h, hu⟩
    · exact Or.inr ⟨h, hu⟩
  refine (Set.encard_le_encard hsub).trans ((Set.encard_union_le _ _).trans ?_)
  exact (add_le_add (quad_sq hpar 0 k a b c hk h) (quad_sq hpar 1 k a b c hk h)).trans (by norm_num)

/-- Simplified SWU: the inputs with a given abscissa that is a root of the right hand side. -/
theorem sswu_root (hpar : ∀ y : ZMod p, y ≠ 0 → (-y).val % 2 ≠ y.val % 2) {a b z x : ZMod p} (ha : a ≠ 0) (hb : b ≠ 0)
    (hz : z ≠ 0) (hsq : IsSquare (rhs a b (b / (z * a)))) (hx0 : rhs a b x = 0)
    (hid : ∀ t : ZMod p, t ^ 2 + t ≠ 0 → rhs a b (t * ((-b / a) * (1 + 1 / (t ^ 2 + t)))) = t ^ 3 * rhs a b ((-b / a) * (1 + 1 / (t ^ 2 + t)))) :
    {u : ZMod p | sswuX a b z u = x}.encard ≤ 7 ∧ (x ≠ b / (z * a) → {u : ZMod p | sswuX a b z u = x}.encard ≤ 4) := by
  have h1 := quad_sq' hpar z (a * x + b) (a * x + b) b hz (Or.inr (Or.inr hb))
  have h3 := quad z 0 1 (Or.inl hz)
  set S1 := {u : ZMod p | (a * x + b) * (z * u ^ 2) ^ 2 + (a * x + b) * (z * u ^ 2) + b = 0}
  set S3 := {u : ZMod p | z * u ^ 2 + 0 * u + 1 = 0}
  have key : ∀ u : ZMod p, sswuX a b z u = x → u ∈ S1 ∨ ((u = 0 ∨ u ∈ S3) ∧ x = b / (z * a)) := by
    intro u hx
    by_cases ht : (z * u ^ 2) ^ 2 + z * u ^ 2 = 0
    · right
      constructor
      · by_cases hu : u = 0
        · exact Or.inl hu
        · right
          have : z * u ^ 2 * (z * u ^ 2 + 0 * u + 1) = 0 := by linear_combination ht
          exact (mul_eq_zero.1 this).resolve_left (mul_ne_zero hz (pow_ne_zero 2 hu))
      · rcases sswu_cases (a := a) (b := b) (z := z) (u := u) (x1 := b / (z * a)) (by rw [if_pos ht]) with h | h
        · rw [← hx, h.2]
        · exact absurd hsq h.1
    · left
      have ht1 : z * u ^ 2 + 1 ≠ 0 := fun h => ht (by linear_combination (z * u ^ 2) * h)
      rcases sswu_cases (a := a) (b := b) (z := z) (u := u)
        (x1 := (-b / a) * (1 + 1 / ((z * u ^ 2) ^ 2 + z * u ^ 2))) (by rw [if_neg ht]) with h | h
      · change (a * x + b) * (z * u ^ 2) ^ 2 + (a * x + b) * (z * u ^ 2) + b = 0
        rw [← hx, h.2]
        generalize (z * u ^ 2) = t at ht ht1
        have ht0 : t ≠ 0 := fun h => ht (by rw [h]; ring)
        have e : t ^ 2 + t = t * (t + 1) := by ring
        rw [e]
        field_simp
        ring
      · exfalso
        have := hid _ ht
        rw [← h.2, hx, hx0] at this
        have ht0 : z * u ^ 2 ≠ 0 := fun h => ht (by rw [h]; ring)
        have := (mul_eq_zero.1 this.symm).resolve_left (pow_ne_zero 3 ht0)
        exact h.1 (this ▸ IsSquare.zero)
  refine ⟨?_, fun hx => (Set.encard_le_encard fun u hu => ?_).trans h1⟩
  · have hsub : {u : ZMod p | sswuX a b z u = x} ⊆ S1 ∪ ({0} ∪ S3) := by
      intro u hu
      rcases key u hu with h | h
      · exact Or.inl h
      · exact Or.inr h.1
    refine (Set.encard_le_encard hsub).trans ((Set.encard_union_le _ _).trans ?_)
    have h03 : ({0} ∪ S3 : Set (ZMod p)).encard ≤ 3 :=
      (Set.encard_union_le _ _).trans ((add_le_add (Set.encard_singleton (0 : ZMod p)).le h3).trans (by norm_num))
    exact (add_le_add h1 h03).trans (by norm_num)
  · rcases key u hu with h | h
    · exact h
    · exact absurd h.2 hx

/-- Shallue-van de Woestijne: all inputs with a given abscissa. -/
theorem svdw_all (hpar : ∀ y : ZMod p, y ≠ 0 → (-y).val % 2 ≠ y.val % 2) (h2 : (2 : ZMod p) ≠ 0) {a b z c x : ZMod p}
    (hg : rhs a b z ≠ 0) (hh : 3 * z ^ 2 + 4 * a ≠ 0) (hc : c ^ 2 = -rhs a b z * (3 * z ^ 2 + 4 * a)) :
    {u : ZMod p | svdwX a b z c u = x}.encard ≤ 12 ∧
      (x ≠ -z / 2 → x ≠ z → {u : ZMod p | svdwX a b z c u = x}.encard ≤ 8) := by
  set g := rhs a b z with hgdef
  set k := -4 * g / (3 * z ^ 2 + 4 * a) with hk
  have hc0 : c ≠ 0 := by
    rintro rfl
    exact mul_ne_zero (neg_ne_zero.2 hg) hh (by rw [← hc]; ring)
  have h4 : (4 : ZMod p) ≠ 0 := by
    have : (4 : ZMod p) = 2 * 2 := by norm_num
    rw [this]; exact mul_ne_zero h2 h2
  have hk0 : k ≠ 0 := div_ne_zero (mul_ne_zero (neg_ne_zero.2 h4) hg) hh
  have h1 := quad ((x + z / 2) * g) c (x + z / 2) (Or.inr (Or.inl hc0))
  have h2' := quad ((x + z / 2) * g) (-c) (x + z / 2) (Or.inr (Or.inl (neg_ne_zero.2 hc0)))
  have h3 := quad_sq' hpar g (x - z - k) (-2 * (x - z + k)) (x - z - k) hg (by
    by_contra h
    push Not at h
    have e1 : x - z + k = 0 := (mul_eq_zero.1 h.2.1).resolve_left (neg_ne_zero.2 h2)
    exact hk0 ((mul_eq_zero.1 (show (2 : ZMod p) * k = 0 by linear_combination e1 - h.1)).resolve_left h2))
  have h5 := quad_sq' hpar g (-1) 0 1 hg (Or.inr (Or.inr one_ne_zero))
  set S1 := {u : ZMod p | (x + z / 2) * g * u ^ 2 + c * u + (x + z / 2) = 0}
  set S2 := {u : ZMod p | (x + z / 2) * g * u ^ 2 + -c * u + (x + z / 2) = 0}
  set S3 := {u : ZMod p | (x - z - k) * (g * u ^ 2) ^ 2 + -2 * (x - z + k) * (g * u ^ 2) + (x - z - k) = 0}
  set S4 := {u : ZMod p | -1 * (g * u ^ 2) ^ 2 + 0 * (g * u ^ 2) + 1 = 0}
  have key : ∀ u : ZMod p, svdwX a b z c u = x →
      u ∈ S1 ∪ S2 ∪ S3 ∨ (u ∈ S4 ∧ (x = -z / 2 ∨ x = z)) := by
    intro u hx
    unfold svdwX at hx
    simp only [← hgdef, ← hk] at hx
    by_cases hvw : (1 - u ^ 2 * g) * (1 + u ^ 2 * g) = 0
    · right
      refine ⟨show -1 * (g * u ^ 2) ^ 2 + 0 * (g * u ^ 2) + 1 = 0 by linear_combination hvw, ?_⟩
      rw [hvw, div_zero] at hx
      simp only [mul_zero, zero_mul, sub_zero, add_zero, ne_eq, OfNat.ofNat_ne_zero, not_false_eq_true, zero_pow] at hx
      split_ifs at hx
      · exact Or.inl hx.symm
      · exact Or.inl hx.symm
      · exact Or.inr hx.symm
    · left
      obtain ⟨hv, hw⟩ := mul_ne_zero_iff.1 hvw
      split_ifs at hx
      · refine Or.inl (Or.inl ?_)
        change (x + z / 2) * g * u ^ 2 + c * u + (x + z / 2) = 0
        rw [← hx]; field_simp; ring
      · refine Or.inl (Or.inr ?_)
        change (x + z / 2) * g * u ^ 2 + -c * u + (x + z / 2) = 0
        rw [← hx]; field_simp; ring
      · refine Or.inr ?_
        change (x - z - k) * (g * u ^ 2) ^ 2 + -2 * (x - z + k) * (g * u ^ 2) + (x - z - k) = 0
        have e : (x - z) * (1 - u ^ 2 * g) ^ 2 = k * (1 + u ^ 2 * g) ^ 2 := by
          rw [← hx]; field_simp; ring
        linear_combination e
  have h12 : (S1 ∪ S2).encard ≤ 4 := (Set.encard_union_le _ _).trans ((add_le_add h1 h2').trans (by norm_num))
  have h123 : (S1 ∪ S2 ∪ S3).encard ≤ 8 := (Set.encard_union_le _ _).trans ((add_le_add h12 h3).trans (by norm_num))
  have h1234 : (S1 ∪ S2 ∪ S3 ∪ S4).encard ≤ 12 := (Set.encard_union_le _ _).trans ((add_le_add h123 h5).trans (by norm_num))
  refine ⟨(Set.encard_le_encard ?_).trans h1234, fun hx1 hx2 => (Set.encard_le_encard ?_).trans h123⟩
  · intro u hux
    rcases key u hux with h | h
    · exact Or.inl h
    · exact Or.inr h.1
  · intro u hux
    rcases key u hux with h | h
    · exact h
    · rcases h.2 with h | h
      · exact absurd h hx1
      · exact absurd h hx2

end Redox.Fibres
