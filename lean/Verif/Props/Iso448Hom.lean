import Verif.Math.AddMap
import Verif.Math.Iso4Alg
import Verif.Props.Iso448Props
import Verif.Props.CofactorProps

/-!
# C69: the 4-isogeny between edwards448 and curve448 and its dual are homomorphisms
-/

set_option maxRecDepth 100000
set_option linter.unusedSectionVars false

namespace Redox.Props.Iso4

open Spec Edw WeierstrassCurve

section
variable {p : ℕ} [Fact p.Prime] {m : Ed4isoMt448} [he0 : ECurve p m.e0]

theorem push448_unique {A : eGroup p m.e0} {B B' : (mGroup p m.e1).Point} (h1 : Push448 A B) (h2 : Push448 A B') : B = B' := by
  rcases B with _ | ⟨u, v, hn⟩ <;> rcases B' with _ | ⟨u', v', hn'⟩
  · rfl
  · exact absurd h1 h2.1
  · exact absurd h2 h1.1
  · obtain ⟨-, rfl, rfl⟩ := h1
    obtain ⟨-, rfl, rfl⟩ := h2
    rfl

theorem one_sub_ne (A : eGroup p m.e0) : 1 - val p m.e0.d * A.x ^ 2 ≠ 0 := by
  intro h0
  apply he0.d_nsq
  have hx : A.x ≠ 0 := by rintro hx; rw [hx] at h0; simp at h0
  refine ⟨1 / A.x, ?_⟩
  field_simp
  linear_combination -h0

/-- Addition of two points that are sent to points with different abscissas. -/
theorem push448_add (h : Ed4OK p m) {A B : eGroup p m.e0} {C1 C2 C3 : (mGroup p m.e1).Point} (h1 : Push448 A C1)
    (h2 : Push448 B C2) (h3 : Push448 (A + B) C3) (hx1 : A.x ≠ 0) (hx2 : B.x ≠ 0)
    (hu : A.y ^ 2 / A.x ^ 2 ≠ B.y ^ 2 / B.x ^ 2) : C3 = C1 + C2 := by
  have c1 := curve_eq h A
  have c2 := curve_eq h B
  have n1 := one_sub_ne A
  have n2 := one_sub_ne B
  have dp := complete_add A B
  have dm := complete_sub A B
  have ex := add_x A B
  have ey : (A + B).y = (A.y * B.y - A.x * B.x) / (1 - val p m.e0.d * A.x * B.x * A.y * B.y) := by
    rw [add_y, show A.y * B.y - val p m.e0.a * A.x * B.x = A.y * B.y - A.x * B.x by linear_combination (-A.x * B.x) * h.a_one]
  have hx3 : (A + B).x ≠ 0 := by
    rw [ex]
    refine div_ne_zero (fun h0 => hu ?_) dp
    field_simp
    linear_combination (A.y * B.x - A.x * B.y) * h0
  have K1 := Iso4Cert.t_add c1 c2 n1 n2 dp dm ex ey hx1 hx2 hx3
  have K2 := Iso4Cert.delta_add c1 c2 n1 n2 dp dm ex ey hx1 hx2 hx3
  have q1 := Iso4Cert.delta_sq c1 h.coeff hx1
  have q2 := Iso4Cert.delta_sq c2 h.coeff hx2
  have hd : (A.y / A.x) ^ 2 - (B.y / B.x) ^ 2 ≠ 0 := by rw [div_pow, div_pow]; exact sub_ne_zero.2 hu
  have E1 := Iso4Cert.chord_x q1 q2 hd K1
  have E2 := Iso4Cert.chord_y hd K1 K2
  rcases C1 with _ | ⟨u1, v1, m1⟩
  · exact absurd h1 hx1
  rcases C2 with _ | ⟨u2, v2, m2⟩
  · exact absurd h2 hx2
  rcases C3 with _ | ⟨u3, v3, m3⟩
  · exact absurd h3 hx3
  obtain ⟨-, eu1, ev1⟩ := h1
  obtain ⟨-, eu2, ev2⟩ := h2
  obtain ⟨-, eu3, ev3⟩ := h3
  have fu : ∀ x y : ZMod p, y ^ 2 / x ^ 2 = (y / x) ^ 2 := fun x y => (div_pow y x 2).symm
  have fv : ∀ x y : ZMod p, x ≠ 0 → (2 - x ^ 2 - y ^ 2) * y / x ^ 3 = y / x * ((2 - x ^ 2 - y ^ 2) / x ^ 2) :=
    fun x y hx => by field_simp
  rw [fu] at eu1 eu2 eu3
  rw [fv _ _ hx1] at ev1
  rw [fv _ _ hx2] at ev2
  rw [fv _ _ hx3] at ev3
  rw [fu, fu, ← eu1, ← eu2] at hu
  rw [Affine.Point.add_of_X_ne hu, Affine.Point.some.injEq, Affine.slope_of_X_ne hu]
  simp only [Affine.addY, Affine.negAddY, Affine.addX, Affine.negY, Mont.M]
  rw [← eu1, ← eu2, ← eu3, ← ev1, ← ev2] at E1
  rw [← eu1, ← eu2, ← eu3, ← ev1, ← ev2, ← ev3] at E2
  refine ⟨by rw [E1]; ring, ?_⟩
  rw [E2, E1]
  ring

/-- The points that are sent to infinity. -/
theorem x_zero (h : Ed4OK p m) {A : eGroup p m.e0} (hx : A.x = 0) : A = 0 ∨ A = eTwo p m.e0 := by
  have hc := curve_eq h A
  have : (A.y - 1) * (A.y + 1) = 0 := by linear_combination hc + (val p m.e0.d * A.y ^ 2 - 1) * A.x * hx
  rcases mul_eq_zero.1 this with h' | h'
  · left; ext
    · exact hx
    · exact sub_eq_zero.1 h'
  · right; ext
    · exact hx
    · exact eq_neg_of_add_eq_zero_left h'

theorem add_eTwo (A : eGroup p m.e0) : (A + eTwo p m.e0).x = -A.x ∧ (A + eTwo p m.e0).y = -A.y := by
  constructor
  · rw [add_x]; simp [eTwo]
  · rw [add_y]; simp [eTwo]

theorem push448_translate (h : Ed4OK p m) {A B : eGroup p m.e0} {C C' : (mGroup p m.e1).Point} (hx : B.x = 0)
    (h1 : Push448 A C) (h2 : Push448 (A + B) C') : C' = C := by
  rcases x_zero h hx with rfl | rfl
  · rw [add_zero] at h2
    exact push448_unique h2 h1
  · obtain ⟨ex, ey⟩ := add_eTwo A
    rcases C with _ | ⟨u, v, hn⟩ <;> rcases C' with _ | ⟨u', v', hn'⟩
    · rfl
    · refine absurd ?_ h2.1
      rw [ex, show A.x = 0 from h1, neg_zero]
    · refine absurd ?_ h1.1
      rw [← neg_eq_zero, ← ex]
      exact h2
    · obtain ⟨hx1, rfl, rfl⟩ := h1
      obtain ⟨-, rfl, rfl⟩ := h2
      rw [Affine.Point.some.injEq, ex, ey]
      constructor
      · ring
      · field_simp

/-- The 4-isogeny as a map of points. -/
noncomputable def psi (h : Ed4OK p m) (A : eGroup p m.e0) : (mGroup p m.e1).Point := (push448_exists h A).choose

theorem psi_spec (h : Ed4OK p m) (A : eGroup p m.e0) : Push448 A (psi h A) := (push448_exists h A).choose_spec

theorem psi_eq_zero (h : Ed4OK p m) {A : eGroup p m.e0} : psi h A = 0 ↔ A.x = 0 := by
  have := psi_spec h A
  constructor
  · intro h0
    rw [h0] at this
    exact this
  · intro hx
    exact push448_unique this (show Push448 A .zero from hx)

theorem psi_generic (h : Ed4OK p m) (A B : eGroup p m.e0) (h1 : psi h A ≠ psi h B) (h2 : psi h A ≠ -psi h B) :
    psi h (A + B) = psi h A + psi h B := by
  by_cases hA : A.x = 0
  · rw [(psi_eq_zero h).2 hA, zero_add, add_comm]
    exact push448_translate h hA (psi_spec h B) (psi_spec h (B + A))
  by_cases hB : B.x = 0
  · rw [(psi_eq_zero h).2 hB, add_zero]
    exact push448_translate h hB (psi_spec h A) (psi_spec h (A + B))
  refine push448_add h (psi_spec h A) (psi_spec h B) (psi_spec h _) hA hB fun hu => ?_
  have s1 := psi_spec h A
  have s2 := psi_spec h B
  generalize psi h A = C1 at *
  generalize psi h B = C2 at *
  rcases C1 with _ | ⟨u1, v1, m1⟩
  · exact hA s1
  rcases C2 with _ | ⟨u2, v2, m2⟩
  · exact hB s2
  obtain ⟨-, e1, -⟩ := s1
  obtain ⟨-, e2, -⟩ := s2
  rw [← e1, ← e2] at hu
  subst hu
  have hv : v1 = v2 ∨ v1 = -v2 := sq_eq_sq_iff_eq_or_eq_neg.1 (by
    rw [((Mont.nonsingular_iff _ u1 v1).1 m1).1, ((Mont.nonsingular_iff _ u1 v2).1 m2).1])
  rcases hv with rfl | rfl
  · exact h1 rfl
  · exact h2 (by rw [Affine.Point.neg_some]; simp [Affine.negY])

/-! ## The dual -/

theorem pull448_zero (h : Ed4OK p m) {A : eGroup p m.e0} (hA : Pull448 A (0 : (mGroup p m.e1).Point)) : A = 0 := by
  ext
  exacts [hA.1, hA.2]

/-- The dual 4-isogeny as a map of points. -/
noncomputable def pi (h : Ed4OK p m) (B : (mGroup p m.e1).Point) : eGroup p m.e0 := (pull448_exists h B).choose

theorem pi_spec (h : Ed4OK p m) (B : (mGroup p m.e1).Point) : Pull448 (pi h B) B := (pull448_exists h B).choose_spec

theorem pi_zero (h : Ed4OK p m) : pi h 0 = 0 := pull448_zero h (pi_spec h 0)

theorem pi_psi (h : Ed4OK p m) (A : eGroup p m.e0) : pi h (psi h A) = 4 • A :=
  pull448_unique (pi_spec h _) (four h A _ (psi_spec h A))

section translate
variable {w : ZMod p}

/-- The kernel of the dual. -/
theorem pi_eq_zero (h : Ed4OK p m) (hw : w ^ 2 = val p m.e1.a - 2) {u v : ZMod p} {hn : (mGroup p m.e1).Nonsingular u v} :
    pi h (.some u v hn) = 0 ↔ u = 0 ∨ u = -1 := by
  have two := (instEdCurve p m.e0).two
  have hs := pi_spec h (.some u v hn)
  have hc := ((Mont.nonsingular_iff _ u v).1 hn).1
  constructor
  · intro h0
    rw [h0] at hs
    rcases hs with ⟨hu, -⟩ | ⟨hu, d0, d1, ex, ey⟩
    · exact Or.inl hu
    · right
      have ex : 0 = 4 * v * (u ^ 2 - 1) := by
        have := ex
        rw [eq_div_iff d0, zero_x] at this
        rw [← this, zero_mul]
      have ey : (u ^ 5 - 2 * u ^ 2 * v ^ 2 - 2 * u ^ 3 - 2 * v ^ 2 + u) = -(u ^ 5 - 2 * u ^ 3 - 4 * u * v ^ 2 + u) := by
        have := ey
        rw [eq_div_iff d1, zero_y] at this
        rw [← this, one_mul]
      have hv : v ≠ 0 := by
        rintro rfl
        refine d1 (mul_left_cancel₀ two ?_)
        linear_combination ey
      have h4 : (4 : ZMod p) ≠ 0 := by rw [show (4 : ZMod p) = 2 * 2 by norm_num]; exact mul_ne_zero two two
      have h1 : (u - 1) * (u + 1) = 0 := by
        apply mul_left_cancel₀ (mul_ne_zero h4 hv)
        linear_combination -ex
      rcases mul_eq_zero.1 h1 with h1 | h1
      · exfalso
        have h1 : u = 1 := sub_eq_zero.1 h1
        subst h1
        have : (2 * 2 * 2) * v ^ 2 = 0 := by linear_combination -ey
        exact mul_ne_zero (mul_ne_zero (mul_ne_zero two two) two) (pow_ne_zero 2 hv) this
      · exact eq_neg_of_add_eq_zero_left h1
  · rintro (rfl | rfl)
    · rcases hs with ⟨-, -, ex, ey⟩ | ⟨hu, -⟩
      · ext
        exacts [ex, ey]
      · exact absurd rfl hu
    · rcases hs with ⟨hu, -⟩ | ⟨hu, d0, d1, ex, ey⟩
      · exact absurd hu (by simp)
      · ext
        · rw [ex, zero_x]; simp
        · rw [ey, zero_y, div_eq_one_iff_eq d1]; ring

/-- The point `(-1, w)` of order four. -/
def ptU (h : Ed4OK p m) (hw : w ^ 2 = val p m.e1.a - 2) : (mGroup p m.e1).Point :=
  .some (-1) w (exists_point h (by rw [hw]; ring))

theorem w_ne (h : Ed4OK p m) (hw : w ^ 2 = val p m.e1.a - 2) : w ≠ 0 := by
  rintro rfl
  apply h.single
  refine ⟨0, ?_⟩
  linear_combination (-(val p m.e1.a) - 2) * hw

theorem ptU_two (h : Ed4OK p m) (hw : w ^ 2 = val p m.e1.a - 2) : ∃ hn, ptU h hw + ptU h hw = .some 0 0 hn := by
  have two := (instEdCurve p m.e0).two
  have hw0 := w_ne h hw
  refine ⟨exists_point h (by ring), ?_⟩
  have hne : w ≠ (mGroup p m.e1).negY (-1) w := by
    simp only [Affine.negY, Mont.M]
    intro h0
    apply mul_ne_zero two hw0
    linear_combination h0
  have hsl : (mGroup p m.e1).slope (-1) (-1) w w = -w := by
    rw [Affine.slope_of_Y_ne rfl hne]
    simp only [Affine.negY, Mont.M]
    have : w - (-w - 0 * -1 - 0) ≠ 0 := by
      rw [show w - (-w - 0 * -1 - 0) = 2 * w by ring]; exact mul_ne_zero two hw0
    rw [div_eq_iff this]
    linear_combination 2 * hw
  rw [ptU, Affine.Point.add_self_of_Y_ne hne, Affine.Point.some.injEq, hsl]
  simp only [Affine.addY, Affine.negAddY, Affine.addX, Affine.negY, Mont.M]
  constructor
  · linear_combination hw
  · linear_combination w * hw

theorem mem_of (h : Ed4OK p m) (hw : w ^ 2 = val p m.e1.a - 2) {B : (mGroup p m.e1).Point} (hB : pi h B = 0) :
    B = 0 ∨ B = ptU h hw + ptU h hw ∨ B = ptU h hw ∨ B = -ptU h hw := by
  rcases B with _ | ⟨u, v, hn⟩
  · exact Or.inl rfl
  · right
    have hc := ((Mont.nonsingular_iff _ u v).1 hn).1
    rcases (pi_eq_zero h hw).1 hB with rfl | rfl
    · left
      obtain ⟨hn', e⟩ := ptU_two h hw
      rw [e, Affine.Point.some.injEq]
      exact ⟨rfl, by simpa using hc⟩
    · right
      have : v = w ∨ v = -w := sq_eq_sq_iff_eq_or_eq_neg.1 (by rw [hc, hw]; ring)
      rcases this with rfl | rfl
      · left; rfl
      · right
        rw [ptU, Affine.Point.neg_some, Affine.Point.some.injEq]
        simp [Affine.negY]

theorem ptU_four (h : Ed4OK p m) (hw : w ^ 2 = val p m.e1.a - 2) : ptU h hw + ptU h hw + (ptU h hw + ptU h hw) = 0 := by
  obtain ⟨hn, e⟩ := ptU_two h hw
  rw [e]
  exact Affine.Point.add_self_of_Y_eq (by simp [Affine.negY])

theorem pi_of_mem (h : Ed4OK p m) (hw : w ^ 2 = val p m.e1.a - 2) {B : (mGroup p m.e1).Point}
    (hB : B = 0 ∨ B = ptU h hw + ptU h hw ∨ B = ptU h hw ∨ B = -ptU h hw) : pi h B = 0 := by
  rcases hB with rfl | rfl | rfl | rfl
  · exact pi_zero h
  · obtain ⟨hn, e⟩ := ptU_two h hw
    rw [e]
    exact (pi_eq_zero h hw).2 (Or.inl rfl)
  · exact (pi_eq_zero h hw).2 (Or.inr rfl)
  · rw [ptU, Affine.Point.neg_some]
    exact (pi_eq_zero h hw).2 (Or.inr rfl)

/-- The dual is invariant under translation by the point of order four. -/
theorem pi_translate (h : Ed4OK p m) (hw : w ^ 2 = val p m.e1.a - 2) (B : (mGroup p m.e1).Point) :
    pi h (B + ptU h hw) = pi h B := by
  have two := (instEdCurve p m.e0).two
  have h4 := ptU_four h hw
  have key : ∀ B : (mGroup p m.e1).Point, (B = 0 ∨ B = ptU h hw + ptU h hw ∨ B = ptU h hw ∨ B = -ptU h hw) →
      (B + ptU h hw = 0 ∨ B + ptU h hw = ptU h hw + ptU h hw ∨ B + ptU h hw = ptU h hw ∨ B + ptU h hw = -ptU h hw) := by
    rintro B (rfl | rfl | rfl | rfl)
    · right; right; left; rw [zero_add]
    · right; right; right; rw [eq_neg_iff_add_eq_zero, ← h4]; abel
    · right; left; rfl
    · left; rw [neg_add_cancel]
  by_cases h0 : pi h B = 0
  · rw [h0]
    exact pi_of_mem h hw (key B (mem_of h hw h0))
  · have h1 : pi h (B + ptU h hw) ≠ 0 := by
      intro h1
      apply h0
      apply pi_of_mem h hw
      have h2 := key _ (key _ (key _ (mem_of h hw h1)))
      rwa [show B + ptU h hw + ptU h hw + ptU h hw + ptU h hw = B by
        rw [show B + ptU h hw + ptU h hw + ptU h hw + ptU h hw = B + (ptU h hw + ptU h hw + (ptU h hw + ptU h hw)) by abel,
          h4, add_zero]] at h2
    rcases B with _ | ⟨u, v, hn⟩
    · exact absurd (pi_zero h) h0
    · have hc := ((Mont.nonsingular_iff _ u v).1 hn).1
      rw [pi_eq_zero h hw, not_or] at h0
      have hu1 : u ≠ -1 := h0.2
      have hu1' : u + 1 ≠ 0 := fun h0 => hu1 (eq_neg_of_add_eq_zero_left h0)
      obtain ⟨u', v', hn', eu, ev, hadd⟩ : ∃ u' v' hn', u' = ((v - w) / (u + 1)) ^ 2 - val p m.e1.a - u + 1 ∧
          v' = -((v - w) / (u + 1) * (u' - u) + v) ∧
          (Affine.Point.some u v hn + ptU h hw : (mGroup p m.e1).Point) = .some u' v' hn' := by
        refine ⟨_, _, _, ?_, ?_, Affine.Point.add_of_X_ne hu1⟩
        · rw [Affine.slope_of_X_ne hu1, sub_neg_eq_add]
          simp only [Affine.addX, Mont.M]
          ring
        · rw [Affine.slope_of_X_ne hu1, sub_neg_eq_add]
          simp only [Affine.addX, Affine.addY, Affine.negAddY, Affine.negY, Mont.M]
          ring
      rw [hadd] at h1 ⊢
      have hs := pi_spec h (.some u v hn)
      have hs' := pi_spec h (.some u' v' hn')
      rw [Ne, pi_eq_zero h hw, not_or] at h1
      rcases hs with ⟨hu, -⟩ | ⟨-, d0, d1, ex, ey⟩
      · exact absurd hu h0.1
      rcases hs' with ⟨hu, -⟩ | ⟨-, d0', d1', ex', ey'⟩
      · exact absurd hu h1.1
      obtain ⟨t1, t2⟩ := Iso4Cert.translate hc hw h0.1 hu1' eu ev
      obtain ⟨E1, E2⟩ := Iso4Cert.translate_pull two hc hw h0.1 hu1' t1 t2 (w_ne h hw) d0 d1 d0' d1'
      ext
      · rw [ex, ex', E1]
      · rw [ey, ey', E2]

end translate

end

/-! ## edwards448 and curve448 -/

open Redox.Inst

/-- The map between the groups of points of edwards448 and curve448 that `push` computes. -/
noncomputable def psi448 (A : eGroup curve448_p map448.e0) : (mGroup curve448_p map448.e1).Point := psi map448_ok A

/-- The map that `pull` computes. -/
noncomputable def pi448 (B : (mGroup curve448_p map448.e1).Point) : eGroup curve448_p map448.e0 := pi map448_ok B

theorem psi448_add (A B : eGroup curve448_p map448.e0) : psi448 (A + B) = psi448 A + psi448 B := by
  refine AddMap.additive_of_generic (psi_generic map448_ok) (fun s hs => ?_) A B
  have hv : EValid curve448_p map448.e0 := edwards448_valid
  obtain ⟨-, g, -, -, hg⟩ := hv.generator
  by_contra hcon
  push Not at hcon
  have hinj : Set.InjOn (fun k : ℕ => psi448 (k • g)) (Finset.range 7) := by
    intro k hk l hl e
    have e' : (4 * k) • g = (4 * l) • g := by
      rw [mul_smul, mul_smul, ← pi_psi map448_ok, ← pi_psi map448_ok]
      exact congrArg pi448 e
    simp only [Finset.coe_range, Set.mem_Iio] at hk hl
    have hr : 28 < map448.e0.r := by decide +kernel
    have hg : addOrderOf g = map448.e0.r := hg
    have := nsmul_injOn_Iio_addOrderOf (x := g) (by rw [Set.mem_Iio, hg]; omega) (by rw [Set.mem_Iio, hg]; omega) e'
    omega
  have := Finset.card_le_card_of_injOn (s := Finset.range 7) (t := s) (fun k : ℕ => psi448 (k • g)) (fun k _ => hcon _) hinj
  rw [Finset.card_range] at this
  omega

/-- The 4-isogeny as a homomorphism. -/
noncomputable def phi448 : eGroup curve448_p map448.e0 →+ (mGroup curve448_p map448.e1).Point :=
  AddMonoidHom.mk' psi448 psi448_add

def w448 : ZMod curve448_p := (528950257000142451010969798134146496096806208096258258133290419984524923934728256972792120570883515182233459997657945594599653183173011 : ℕ)

theorem w448_sq : w448 ^ 2 = val curve448_p map448.e1.a - 2 := by
  have : ((528950257000142451010969798134146496096806208096258258133290419984524923934728256972792120570883515182233459997657945594599653183173011 : ℕ) ^ 2 : ℕ) ≡ 156324 [MOD curve448_p] := by decide +kernel
  have := (ZMod.natCast_eq_natCast_iff _ _ _).2 this
  have ha : val curve448_p map448.e1.a = ((156326 : ℕ) : ZMod curve448_p) := by rfl
  rw [ha, w448, ← Nat.cast_pow, this]
  norm_num

/-- The point `(-1, w)`. -/
noncomputable def U448 : (mGroup curve448_p map448.e1).Point := ptU map448_ok w448_sq

theorem ker448 : Nat.card phi448.ker = 2 := by
  have : (phi448.ker : Set (eGroup curve448_p map448.e0)) = {0, eTwo curve448_p map448.e0} := by
    ext A
    simp only [SetLike.mem_coe, AddMonoidHom.mem_ker, Set.mem_insert_iff, Set.mem_singleton_iff]
    refine ⟨fun h0 => x_zero map448_ok ((psi_eq_zero map448_ok).1 h0), ?_⟩
    rintro (rfl | rfl)
    · exact map_zero _
    · exact (psi_eq_zero map448_ok).2 rfl
  rw [← SetLike.coe_sort_coe, this, Nat.card_coe_set_eq, Set.ncard_pair]
  intro h0
  have h1 : (0 : eGroup curve448_p map448.e0).y = (eTwo curve448_p map448.e0).y := by rw [← h0]
  rw [zero_y] at h1
  refine (instEdCurve curve448_p map448.e0).two ?_
  rw [← one_add_one_eq_two]
  nth_rewrite 1 [h1]
  exact neg_add_cancel 1

theorem index448 : phi448.range.index = 2 := by
  have hc : MCurve curve448_p map448.e1 := curve448_valid.curve
  haveI := Inst.m_finite hc
  have h1 : Nat.card (mGroup curve448_p map448.e1).Point = curve448.r * 4 := Inst.card_curve448
  have h0 : Nat.card (eGroup curve448_p map448.e0) = edwards448.r * 4 :=
    @Inst.card_edwards448 map448_e0
  have e0 := AddSubgroup.card_mul_index phi448.ker
  have e1 := AddSubgroup.card_mul_index phi448.range
  rw [AddSubgroup.index_ker, ker448, h0] at e0
  rw [h1] at e1
  have hr : edwards448.r = curve448.r := by decide +kernel
  have hpos : 0 < curve448.r := by decide +kernel
  rw [hr] at e0
  have e2 : Nat.card phi448.range = curve448.r * 2 := by omega
  rw [e2] at e1
  exact Nat.eq_of_mul_eq_mul_left (show 0 < curve448.r * 2 by omega) (by rw [e1]; ring)

theorem U448_not_mem : U448 ∉ phi448.range := by
  intro hU
  have hc : MCurve curve448_p map448.e1 := curve448_valid.curve
  haveI := Inst.m_finite hc
  have h1 : Nat.card (mGroup curve448_p map448.e1).Point = curve448.r * 4 := Inst.card_curve448
  have e1 := AddSubgroup.card_mul_index phi448.range
  rw [h1, index448] at e1
  have e2 : Nat.card phi448.range = curve448.r * 2 := by omega
  have e3 : (curve448.r * 2) • U448 = 0 := by
    have := card_nsmul_eq_zero' (x := (⟨U448, hU⟩ : phi448.range))
    rw [e2] at this
    exact congrArg Subtype.val this
  obtain ⟨hn, e4⟩ := ptU_two map448_ok w448_sq
  have h2 : 2 • U448 = .some 0 0 hn := (two_nsmul _).trans e4
  have h4 : 4 • U448 = 0 := by
    rw [show 4 = 2 * 2 by rfl, mul_smul, two_nsmul, two_nsmul]
    exact ptU_four map448_ok w448_sq
  have hr : curve448.r * 2 = curve448.r / 2 * 4 + 2 := by decide +kernel
  rw [hr, add_smul, mul_smul, h4, nsmul_zero, zero_add, h2] at e3
  exact absurd e3 (Affine.Point.some_ne_zero _)

theorem mem_range_or (B : (mGroup curve448_p map448.e1).Point) : (∃ A, B = phi448 A) ∨ ∃ A, B = phi448 A + U448 := by
  by_cases hB : B ∈ phi448.range
  · obtain ⟨A, rfl⟩ := hB
    exact Or.inl ⟨A, rfl⟩
  · right
    have : B - U448 ∈ phi448.range := by
      rw [sub_eq_add_neg, AddSubgroup.add_mem_iff_of_index_two index448, neg_mem_iff]
      exact iff_of_false hB U448_not_mem
    obtain ⟨A, hA⟩ := this
    exact ⟨A, by rw [hA]; abel⟩

theorem pi448_add (B C : (mGroup curve448_p map448.e1).Point) : pi448 (B + C) = pi448 B + pi448 C := by
  have T : ∀ B, pi448 (B + U448) = pi448 B := pi_translate map448_ok w448_sq
  have K : ∀ A A', pi448 (phi448 A + phi448 A') = pi448 (phi448 A) + pi448 (phi448 A') := by
    intro A A'
    rw [← map_add]
    refine (pi_psi map448_ok _).trans ?_
    rw [smul_add]
    exact congrArg₂ _ (pi_psi map448_ok _).symm (pi_psi map448_ok _).symm
  have D := mem_range_or
  rcases D B with ⟨A, rfl⟩ | ⟨A, rfl⟩ <;> rcases D C with ⟨A', rfl⟩ | ⟨A', rfl⟩
  · exact K A A'
  · rw [← add_assoc, T, T, K]
  · rw [add_right_comm, T, T, K]
  · rw [show phi448 A + U448 + (phi448 A' + U448) = phi448 A + phi448 A' + U448 + U448 by abel, T, T, T, T, K]

/-- The dual as a homomorphism. -/
noncomputable def dual448 : (mGroup curve448_p map448.e1).Point →+ eGroup curve448_p map448.e0 :=
  AddMonoidHom.mk' pi448 pi448_add

theorem dual_phi (A : eGroup curve448_p map448.e0) : dual448 (phi448 A) = 4 • A := pi_psi map448_ok A

theorem four_U : 4 • U448 = 0 := by
  rw [show 4 = 2 * 2 by rfl, mul_smul, two_nsmul, two_nsmul]
  exact ptU_four map448_ok w448_sq

theorem dual_U : dual448 U448 = 0 := by
  have : pi448 (0 + U448) = pi448 0 := pi_translate map448_ok w448_sq 0
  rw [zero_add] at this
  exact this.trans (map_zero dual448)

theorem phi_dual (B : (mGroup curve448_p map448.e1).Point) : phi448 (dual448 B) = 4 • B := by
  rcases mem_range_or B with ⟨A, rfl⟩ | ⟨A, rfl⟩
  · rw [dual_phi, map_nsmul]
  · rw [map_add, dual_U, add_zero, dual_phi, map_nsmul, nsmul_add, four_U, add_zero]

theorem order_U : addOrderOf U448 = 4 := by
  obtain ⟨hn, e4⟩ := ptU_two map448_ok w448_sq
  have h2 : 2 • U448 = .some 0 0 hn := (two_nsmul _).trans e4
  haveI : Fact (Nat.Prime 2) := ⟨Nat.prime_two⟩
  refine addOrderOf_eq_prime_pow (p := 2) (n := 1) (x := U448) ?_ four_U
  rw [pow_one, h2]
  exact Affine.Point.some_ne_zero _

theorem dual_ker : Nat.card dual448.ker = 4 := by
  have : dual448.ker = AddSubgroup.zmultiples U448 := by
    apply le_antisymm
    · intro B hB
      have hU : U448 ∈ AddSubgroup.zmultiples U448 := AddSubgroup.mem_zmultiples _
      rcases mem_of map448_ok w448_sq hB with rfl | rfl | rfl | rfl
      · exact zero_mem _
      · exact add_mem hU hU
      · exact hU
      · exact neg_mem hU
    · rw [AddSubgroup.zmultiples_le]
      exact dual_U
  rw [this, Nat.card_zmultiples, order_U]

/-- C69: the maps that `push` and `pull` of `edwards448_to_curve448()` describe (`Push448` and `Pull448`, RFC 7748, section 4.2)
are homomorphisms between the groups of points, with kernels of 2 and of 4 points, and each composition is multiplication by
four: `pull` is the dual isogeny of `push`. -/
theorem _root_.Redox.Props.C69_isogeny (m : Ed4isoMt448) (hm : edwards448_to_curve448 = R.ok m) [ECurve curve448_p m.e0] :
    ∃ (φ : eGroup curve448_p m.e0 →+ (mGroup curve448_p m.e1).Point) (ψ : (mGroup curve448_p m.e1).Point →+ eGroup curve448_p m.e0),
      (∀ A, Push448 A (φ A)) ∧ (∀ B, Pull448 (ψ B) B) ∧ (∀ A, ψ (φ A) = 4 • A) ∧ (∀ B, φ (ψ B) = 4 • B) ∧
      Nat.card φ.ker = 2 ∧ Nat.card ψ.ker = 4 := by
  rw [map448_eq, R.ok.injEq] at hm
  subst hm
  exact ⟨phi448, dual448, psi_spec map448_ok, pi_spec map448_ok, dual_phi, phi_dual, ker448, dual_ker⟩

theorem push_returns {P : Edwards.Point} {A : eGroup curve448_p map448.e0} (hP : EDenotes curve448_p map448.e0 P A) :
    MReturns curve448_p map448.e1 (map448.push P) (phi448 A) := push_denotes map448_ok hP (psi_spec map448_ok A)

theorem pull_returns {Q : Montgomery.Point} {B : (mGroup curve448_p map448.e1).Point} (hQ : MDenotes curve448_p map448.e1 Q B)
    (h0 : ∀ hn, B ≠ .some 0 0 hn) :
    EReturns curve448_p map448.e0 (map448.pull Q) (dual448 B) := pull_denotes map448_ok hQ (pi_spec map448_ok B) h0

/-- C69, `push` and addition: for all points and all representatives, `push(P + Q) == push(P) + push(Q)`. -/
theorem _root_.Redox.Props.C69_push_add (m : Ed4isoMt448) (hm : edwards448_to_curve448 = R.ok m) [ECurve curve448_p m.e0]
    (P Q : Edwards.Point) (A B : eGroup curve448_p m.e0) (hP : EDenotes curve448_p m.e0 P A) (hQ : EDenotes curve448_p m.e0 Q B) :
    (do (← m.push (← P.add Q)).eq (← (← m.push P).add (← m.push Q))) = R.ok true := by
  rw [map448_eq, R.ok.injEq] at hm
  subst hm
  have hv : MValid curve448_p map448.e1 := curve448_valid
  obtain ⟨S, hS, hSd⟩ := (C36_group_law curve448_p map448.e0 P Q A B hP hQ).1
  obtain ⟨T, hT, hTd⟩ := push_returns hSd
  obtain ⟨P', hP', hPd⟩ := push_returns hP
  obtain ⟨Q', hQ', hQd⟩ := push_returns hQ
  obtain ⟨V, hV, hVd⟩ := (C32_group_law_partial curve448_p map448.e1 hv.curve hv.b_one hv.complete P' Q' _ _ hPd hQd).1
  simp only [hS, hT, hP', hQ', hV, R.ok_bind]
  rw [Mo.eq_of_denotes _ _ _ _ hTd hVd, map_add, decide_eq_true rfl]

/-- C69, `push` and multiplication by a scalar: `push(P * k) == push(P) * k`. Partial: for the zero scalar see `C37_refuted_zero` and
`C33_refuted_zero`. -/
theorem _root_.Redox.Props.C69_push_mul_partial (m : Ed4isoMt448) (hm : edwards448_to_curve448 = R.ok m) [ECurve curve448_p m.e0]
    (prof : Profile) (P : Edwards.Point) (A : eGroup curve448_p m.e0) (hP : EDenotes curve448_p m.e0 P A) (k : Scalar)
    (hk : CanonScalar m.e0.r k) (h0 : k.k ≠ 0 ∨ prof = .release) :
    (do (← m.push (← P.mul prof k)).eq (← (← m.push P).mul prof k)) = R.ok true := by
  rw [map448_eq, R.ok.injEq] at hm
  subst hm
  have hv : MValid curve448_p map448.e1 := curve448_valid
  have he : EValid curve448_p map448.e0 := edwards448_valid
  obtain ⟨S, hS, hSd⟩ := C37_mul_partial curve448_p map448.e0 he.order_bits prof P A hP k hk h0
  obtain ⟨T, hT, hTd⟩ := push_returns hSd
  obtain ⟨P', hP', hPd⟩ := push_returns hP
  obtain ⟨V, hV, hVd⟩ := C33_mul_partial curve448_p map448.e1 hv.curve hv.b_one hv.complete hv.order_bits prof P' _ hPd k hk h0
  simp only [hS, hT, hP', hV, R.ok_bind]
  rw [Mo.eq_of_denotes _ _ _ _ hTd hVd, map_zsmul, decide_eq_true rfl]

/-- C69, `pull` and addition: `pull(P + Q) == pull(P) + pull(Q)` unless one of the three points is `(0, 0)`. Partial: for `(0, 0)`
see `C48_refuted_pull`. -/
theorem _root_.Redox.Props.C69_pull_add_partial (m : Ed4isoMt448) (hm : edwards448_to_curve448 = R.ok m) [ECurve curve448_p m.e0]
    (P Q : Montgomery.Point) (A B : (mGroup curve448_p m.e1).Point) (hP : MDenotes curve448_p m.e1 P A)
    (hQ : MDenotes curve448_p m.e1 Q B) (hA : ∀ hn, A ≠ .some 0 0 hn) (hB : ∀ hn, B ≠ .some 0 0 hn) (hAB : ∀ hn, A + B ≠ .some 0 0 hn) :
    (do (← m.pull (← P.add Q)).eq (← (← m.pull P).add (← m.pull Q))) = R.ok true := by
  rw [map448_eq, R.ok.injEq] at hm
  subst hm
  have hv : MValid curve448_p map448.e1 := curve448_valid
  obtain ⟨S, hS, hSd⟩ := (C32_group_law_partial curve448_p map448.e1 hv.curve hv.b_one hv.complete P Q _ _ hP hQ).1
  obtain ⟨T, hT, hTd⟩ := pull_returns hSd hAB
  obtain ⟨P', hP', hPd⟩ := pull_returns hP hA
  obtain ⟨Q', hQ', hQd⟩ := pull_returns hQ hB
  obtain ⟨V, hV, hVd⟩ := (C36_group_law curve448_p map448.e0 P' Q' _ _ hPd hQd).1
  simp only [hS, hT, hP', hQ', hV, R.ok_bind]
  rw [ELink.eq_of_denotes _ _ _ _ hTd hVd, map_add, decide_eq_true rfl]

/-- C69, `pull` and multiplication by a scalar. Partial: as above. -/
theorem _root_.Redox.Props.C69_pull_mul_partial (m : Ed4isoMt448) (hm : edwards448_to_curve448 = R.ok m) [ECurve curve448_p m.e0]
    (prof : Profile) (P : Montgomery.Point) (A : (mGroup curve448_p m.e1).Point) (hP : MDenotes curve448_p m.e1 P A) (k : Scalar)
    (hk : CanonScalar m.e1.r k) (h0 : k.k ≠ 0 ∨ prof = .release)
    (hA : ∀ hn, A ≠ .some 0 0 hn) (hkA : ∀ hn, k.k • A ≠ .some 0 0 hn) :
    (do (← m.pull (← P.mul prof k)).eq (← (← m.pull P).mul prof k)) = R.ok true := by
  rw [map448_eq, R.ok.injEq] at hm
  subst hm
  have hv : MValid curve448_p map448.e1 := curve448_valid
  have he : EValid curve448_p map448.e0 := edwards448_valid
  obtain ⟨S, hS, hSd⟩ := C33_mul_partial curve448_p map448.e1 hv.curve hv.b_one hv.complete hv.order_bits prof P _ hP k hk h0
  obtain ⟨T, hT, hTd⟩ := pull_returns hSd hkA
  obtain ⟨P', hP', hPd⟩ := pull_returns hP hA
  obtain ⟨V, hV, hVd⟩ := C37_mul_partial curve448_p map448.e0 he.order_bits prof P' _ hPd k hk h0
  simp only [hS, hT, hP', hV, R.ok_bind]
  rw [ELink.eq_of_denotes _ _ _ _ hTd hVd, map_zsmul, decide_eq_true rfl]

/-- C69, `push` after `pull` is multiplication by four. Partial: as above, for `(0, 0)`. -/
theorem _root_.Redox.Props.C69_push_pull_partial (m : Ed4isoMt448) (hm : edwards448_to_curve448 = R.ok m) [ECurve curve448_p m.e0]
    (P : Montgomery.Point) (A : (mGroup curve448_p m.e1).Point) (hP : MDenotes curve448_p m.e1 P A) (hA : ∀ hn, A ≠ .some 0 0 hn) :
    (do (← m.push (← m.pull P)).eq (← (← P.add P).add (← P.add P))) = R.ok true := by
  rw [map448_eq, R.ok.injEq] at hm
  subst hm
  have hv : MValid curve448_p map448.e1 := curve448_valid
  obtain ⟨P', hP', hPd⟩ := pull_returns hP hA
  obtain ⟨T, hT, hTd⟩ := push_returns hPd
  obtain ⟨D, hD, hDd⟩ := (C32_group_law_partial curve448_p map448.e1 hv.curve hv.b_one hv.complete P P _ _ hP hP).1
  obtain ⟨F, hF, hFd⟩ := (C32_group_law_partial curve448_p map448.e1 hv.curve hv.b_one hv.complete D D _ _ hDd hDd).1
  simp only [hP', hT, hD, hF, R.ok_bind]
  rw [Mo.eq_of_denotes _ _ _ _ hTd hFd, phi_dual, decide_eq_true]
  rw [← two_nsmul, ← two_nsmul, ← mul_nsmul]

/-- The hypotheses hold at the generators, taken twice, and with the scalar 3. -/
example : (∃ P A, EDenotes curve448_p map448.e0 P A ∧ A.x ≠ 0) ∧ CanonScalar map448.e0.r ⟨3, map448.e0.r⟩ ∧
    ∃ P A, MDenotes curve448_p map448.e1 P A ∧ (∀ hn, A ≠ .some 0 0 hn) ∧ (∀ hn, A + A ≠ .some 0 0 hn) ∧
      ∀ hn, (3 : ℤ) • A ≠ .some 0 0 hn := by
  have hv : MValid curve448_p map448.e1 := curve448_valid
  have he : EValid curve448_p map448.e0 := edwards448_valid
  refine ⟨?_, ⟨rfl, by decide +kernel, by decide +kernel⟩, ?_⟩
  · obtain ⟨G, g, -, hg, ho⟩ := he.generator
    refine ⟨G, g, hg, fun hx => ?_⟩
    have ho' : addOrderOf g = map448.e0.r := ho
    have h4 : 4 • g = 0 := by
      rw [← dual_phi, show phi448 g = 0 from (psi_eq_zero map448_ok).2 hx, map_zero]
    have := Nat.le_of_dvd (by norm_num) (addOrderOf_dvd_iff_nsmul_eq_zero.2 h4)
    rw [ho'] at this
    revert this
    decide +kernel
  · obtain ⟨G, g, -, hg, ho⟩ := hv.generator
    have ho' : addOrderOf g = map448.e1.r := ho
    have two : ∀ hn, 2 • (Affine.Point.some 0 0 hn : (mGroup curve448_p map448.e1).Point) = 0 := by
      intro hn
      rw [two_nsmul]
      exact Affine.Point.add_self_of_Y_eq (by simp [Affine.negY])
    have key : ∀ n : ℕ, 0 < n → n < 4 → ∀ hn, n • g ≠ .some 0 0 hn := by
      intro n n0 n4 hn e
      have h2 : (2 * n) • g = 0 := by rw [mul_smul, e]; exact two hn
      have := Nat.le_of_dvd (by omega) (addOrderOf_dvd_iff_nsmul_eq_zero.2 h2)
      have hr : 8 < map448.e1.r := by decide +kernel
      omega
    refine ⟨G, g, hg, ?_, ?_, ?_⟩
    · simpa using key 1
    · rw [← two_nsmul]; exact key 2 (by norm_num) (by norm_num)
    · exact_mod_cast key 3 (by norm_num) (by norm_num)

end Redox.Props.Iso4
