import Mathlib.GroupTheory.Sylow
import Mathlib.GroupTheory.Index
import Mathlib.Data.ZMod.Basic
import Verif.Math.Count
import Verif.Math.Edwards

/-! # Group orders from torsion points -/

namespace Redox.Cof

section group
variable {G : Type*} [AddCommGroup G]

/-- If `q` kills a subgroup of index `m`, then `q m` kills the group. -/
theorem kill_of_subgroup (H : AddSubgroup G) {q m : ℕ} (hq : ∀ a ∈ H, q • a = 0) (hm : Nat.card G = Nat.card H * m)
    [Finite G] (A : G) : (q * m) • A = 0 := by
  have hi : H.index = m := by
    have := H.card_mul_index
    rw [hm] at this
    exact Nat.eq_of_mul_eq_mul_left Nat.card_pos this
  rw [mul_smul]
  apply hq
  have : H.index • A ∈ H := by
    rw [← QuotientAddGroup.eq_zero_iff, QuotientAddGroup.mk_nsmul]
    exact card_nsmul_eq_zero'
  rwa [hi] at this

/-- Two independent points of prime order `q` span a subgroup of `q²` elements killed by `q`. -/
theorem rank_two {q : ℕ} (hq : q.Prime) {P Q : G} (hP : q • P = 0) (hP0 : P ≠ 0) (hQ : q • Q = 0)
    (hne : ∀ k : ℤ, Q ≠ k • P) : ∃ H : AddSubgroup G, Nat.card H = q ^ 2 ∧ (∀ a ∈ H, q • a = 0) ∧
      ∀ K : AddSubgroup G, P ∈ K → Q ∈ K → H ≤ K := by
  haveI : Fact q.Prime := ⟨hq⟩
  let f : (A : G) → q • A = 0 → ZMod q →+ G := fun A h => ZMod.lift q ⟨zmultiplesHom G A, by simpa using h⟩
  have hf : ∀ A h (k : ℤ), f A h (k : ZMod q) = k • A := fun A h k => by simp [f]
  let g : ZMod q × ZMod q →+ G := (f P hP).coprod (f Q hQ)
  have hg : Function.Injective g := by
    rw [injective_iff_map_eq_zero]
    rintro ⟨a, b⟩ hab
    obtain ⟨a, rfl⟩ := ZMod.intCast_surjective a
    obtain ⟨b, rfl⟩ := ZMod.intCast_surjective b
    have h0 : a • P + b • Q = 0 := by simpa [g, hf] using hab
    have hb : (b : ZMod q) = 0 := by
      by_contra hb
      obtain ⟨c, hc⟩ := ZMod.intCast_surjective ((b : ZMod q)⁻¹)
      have h1 : ((b * c : ℤ) : ZMod q) = (1 : ℤ) := by push_cast; rw [hc, mul_inv_cancel₀ hb]
      have h2 : (b * c) • Q = Q := by
        have := congrArg (f Q hQ) h1
        rwa [hf Q hQ, hf Q hQ, one_smul] at this
      apply hne (-(c * a))
      rw [← h2, mul_comm, mul_smul, eq_neg_of_add_eq_zero_right h0, smul_neg, neg_smul, mul_smul]
    have hQ0 : b • Q = 0 := by
      have := congrArg (f Q hQ) hb
      rwa [hf Q hQ, map_zero] at this
    rw [hQ0, add_zero] at h0
    have ha : (a : ZMod q) = 0 := by
      rw [ZMod.intCast_zmod_eq_zero_iff_dvd]
      have hord : addOrderOf P = q := addOrderOf_eq_prime hP hP0
      rw [← hord]
      exact addOrderOf_dvd_iff_zsmul_eq_zero.2 h0
    rw [ha, hb]; rfl
  refine ⟨g.range, ?_, ?_, ?_⟩
  · have : Nat.card g.range = Nat.card (ZMod q × ZMod q) := Nat.card_congr (AddMonoidHom.ofInjective hg).toEquiv.symm
    rw [this, Nat.card_prod, Nat.card_zmod, sq]
  · rintro _ ⟨⟨a, b⟩, rfl⟩
    rw [← map_nsmul]
    have : q • ((a, b) : ZMod q × ZMod q) = 0 := by simp [Prod.ext_iff]
    rw [this, map_zero]
  · rintro K hPK hQK _ ⟨⟨a, b⟩, rfl⟩
    obtain ⟨a, rfl⟩ := ZMod.intCast_surjective a
    obtain ⟨b, rfl⟩ := ZMod.intCast_surjective b
    have : g ((a : ZMod q), (b : ZMod q)) = a • P + b • Q := by simp [g, hf]
    rw [this]
    exact K.add_mem (K.zsmul_mem hPK a) (K.zsmul_mem hQK b)

theorem four_nsmul (A : G) : 4 • A = (A + A) + (A + A) := by abel

theorem eight_nsmul (A : G) : 8 • A = 4 • (A + A) := by abel

/-- If the elements killed by 8 are killed by 4 and there are at most four of those, 8 does not divide the order. -/
theorem not_eight_dvd [Finite G] (h8 : ∀ A : G, 8 • A = 0 → 4 • A = 0) (l : List G) (hl : l.length ≤ 4)
    (h4 : ∀ A : G, 4 • A = 0 → A ∈ l) : ¬ 8 ∣ Nat.card G := by
  classical
  intro hd
  haveI : Fact (Nat.Prime 2) := ⟨Nat.prime_two⟩
  haveI := Fintype.ofFinite G
  have hex : ∃ s : Finset G, (s : Finset G).card = 8 ∧ ∀ a ∈ s, 8 • a = 0 := by
    obtain ⟨K, hK⟩ := Sylow.exists_subgroup_card_pow_prime (G := Multiplicative G) 2 (n := 3) (by
      simpa [Nat.card_congr Multiplicative.toAdd] using hd)
    haveI : Fintype K := Fintype.ofFinite K
    replace hK : Nat.card K = 8 := hK
    refine ⟨(Finset.univ : Finset K).map ⟨fun k => k.1.toAdd, fun a b h => Subtype.ext h⟩, ?_, ?_⟩
    · rw [Finset.card_map, Finset.card_univ, ← Nat.card_eq_fintype_card, hK]
    · intro a ha
      obtain ⟨k, -, rfl⟩ := Finset.mem_map.1 ha
      have : k ^ 8 = 1 := by
        have := pow_card_eq_one' (x := k)
        rwa [hK] at this
      have h1 := congrArg (fun k : K => k.1.toAdd) this
      simp only [SubmonoidClass.coe_pow, toAdd_pow, OneMemClass.coe_one, toAdd_one] at h1
      exact h1
  obtain ⟨s, hs, hk⟩ := hex
  have : s ⊆ l.toFinset := fun a ha => List.mem_toFinset.2 (h4 a (h8 a (hk a ha)))
  have := (Finset.card_le_card this).trans l.toFinset_card_le
  omega

/-- A group of at most `b` elements with an element of prime order `r` and an element of order `h` prime to `r` has `h r`
elements, if the next multiple is too large. -/
theorem card_of_orders [Finite G] {r h b : ℕ} {A B : G} (hA : addOrderOf A = r) (hB : addOrderOf B = h)
    (hco : Nat.Coprime r h) (hb : Nat.card G ≤ b) (hlt : b < 2 * (r * h)) : Nat.card G = r * h := by
  obtain ⟨k, hk⟩ : r * h ∣ Nat.card G :=
    hco.mul_dvd_of_dvd_of_dvd (hA ▸ addOrderOf_dvd_natCard A) (hB ▸ addOrderOf_dvd_natCard B)
  have hpos : 0 < Nat.card G := Nat.card_pos
  rw [hk] at hb hpos ⊢
  have hk2 : k < 2 := by
    by_contra hge
    have : r * h * 2 ≤ r * h * k := Nat.mul_le_mul_left _ (by omega)
    omega
  have : k = 1 := by
    rcases Nat.eq_zero_or_pos k with rfl | h0
    · simp at hpos
    · omega
  rw [this, mul_one]

/-- The same, where 8 is known not to divide the order. -/
theorem card_of_orders_four [Finite G] {r b : ℕ} {A B : G} (hA : addOrderOf A = r) (hB : addOrderOf B = 4)
    (hco : Nat.Coprime r 4) (hb : Nat.card G ≤ b) (hlt : b < 3 * (r * 4)) (h8 : ¬ 8 ∣ Nat.card G) :
    Nat.card G = r * 4 := by
  obtain ⟨k, hk⟩ : r * 4 ∣ Nat.card G :=
    hco.mul_dvd_of_dvd_of_dvd (hA ▸ addOrderOf_dvd_natCard A) (hB ▸ addOrderOf_dvd_natCard B)
  have hpos : 0 < Nat.card G := Nat.card_pos
  have hk2 : k ≠ 2 := by
    rintro rfl
    exact h8 ⟨r, by rw [hk]; ring⟩
  rw [hk] at hb hpos ⊢
  have hk3 : k < 3 := by
    by_contra hge
    have : r * 4 * 3 ≤ r * 4 * k := Nat.mul_le_mul_left _ (by omega)
    omega
  have : k = 1 := by
    rcases Nat.eq_zero_or_pos k with rfl | h0
    · simp at hpos
    · omega
  rw [this, mul_one]

theorem order_pow_two {B : G} {n : ℕ} (h1 : (2 ^ (n + 1)) • B = 0) (h0 : (2 ^ n) • B ≠ 0) : addOrderOf B = 2 ^ (n + 1) := by
  haveI : Fact (Nat.Prime 2) := ⟨Nat.prime_two⟩
  exact addOrderOf_eq_prime_pow h0 h1

/-- In a group of `r h` elements with an element `A` of order `r` prime to `h`, every `h`-fold multiple is a multiple of
`A`. -/
theorem cleared [Finite G] {r h : ℕ} {A : G} (hr : r.Prime) (hA : addOrderOf A = r) (hk : ∀ B : G, (r * h) • B = 0)
    (hc : ¬ r * r ∣ Nat.card G) (B : G) : r • (h • B) = 0 ∧ ∃ n : ℤ, h • B = n • A := by
  have h0 : r • (h • B) = 0 := by rw [← mul_smul]; exact hk B
  refine ⟨h0, ?_⟩
  by_contra hne
  push Not at hne
  have hA0 : A ≠ 0 := by
    rintro rfl
    rw [addOrderOf_zero] at hA
    exact hr.one_lt.ne hA
  obtain ⟨H, hH, -⟩ := rank_two hr (P := A) (Q := h • B) (by rw [← hA]; exact addOrderOf_nsmul_eq_zero A) hA0 h0 hne
  apply hc
  have := H.card_addSubgroup_dvd_card
  rwa [hH, sq] at this

end group

/-! ## Montgomery curves -/

section mont
variable {F : Type*} [Field F] [DecidableEq F] {a : F}

open WeierstrassCurve.Affine

/-- `y² = x³ + a x² + x`. -/
abbrev WM (a : F) : WeierstrassCurve.Affine F := ⟨0, a, 0, 1, 0⟩

theorem wm_eq {x y : F} (h : (WM a).Nonsingular x y) : y ^ 2 = x ^ 3 + a * x ^ 2 + x := by
  have := ((WM a).equation_iff x y).1 h.1
  simp only at this
  linear_combination this

/-- The double of a point with `y = 0` is the identity. -/
theorem double_y_zero {x : F} (h : (WM a).Nonsingular x 0) : Point.some x 0 h + Point.some x 0 h = 0 :=
  Point.add_self_of_Y_eq (by simp [WeierstrassCurve.Affine.negY])

/-- The double of a point with `y ≠ 0` has abscissa `((x² - 1) / (2 y))²`. -/
theorem double_x (h2 : (2 : F) ≠ 0) {x y : F} (h : (WM a).Nonsingular x y) (hy : y ≠ 0) :
    ∃ Y hn, Point.some x y h + Point.some x y h = Point.some (((x ^ 2 - 1) / (2 * y)) ^ 2) Y hn := by
  have hne : y ≠ (WM a).negY x y := by
    simp only [WeierstrassCurve.Affine.negY, zero_mul, sub_zero]
    intro h0
    apply hy
    have : 2 * y = 0 := by linear_combination h0
    exact (mul_eq_zero.1 this).resolve_left h2
  rw [Point.add_self_of_Y_ne hne]
  have hX : (WM a).addX x x ((WM a).slope x x y y) = ((x ^ 2 - 1) / (2 * y)) ^ 2 := by
    rw [slope_of_Y_ne rfl hne, WeierstrassCurve.Affine.addX]
    simp only [WeierstrassCurve.Affine.negY, zero_mul, sub_zero, add_zero, sub_neg_eq_add]
    have he := wm_eq h
    rw [← two_mul y]
    field_simp
    linear_combination (-4 * (a + 2 * x)) * he
  have aux : ∀ {X Y X' : F} (hn : (WM a).Nonsingular X Y), X = X' → ∃ Y' hn', Point.some X Y hn = Point.some X' Y' hn' := by
    rintro X Y X' hn rfl
    exact ⟨Y, hn, rfl⟩
  exact aux _ hX

/-- If `-1`, `a + 2` and `a² - 4` are not squares, then `8` does not divide the number of points. -/
theorem mont_not_eight_dvd (h2 : (2 : F) ≠ 0) [Finite (WM a).Point] (hm1 : ¬ IsSquare (-1 : F)) (ha2 : ¬ IsSquare (a + 2))
    (hdisc : ¬ IsSquare (a ^ 2 - 4)) : ¬ 8 ∣ Nat.card (WM a).Point := by
  -- the only point of order two is (0, 0)
  have t2 : ∀ x y (h : (WM a).Nonsingular x y), y = 0 → x = 0 := by
    rintro x y h rfl
    have he := wm_eq h
    by_contra hx
    apply hdisc
    refine ⟨2 * x + a, ?_⟩
    have : x ^ 2 + a * x + 1 = 0 := by
      apply mul_left_cancel₀ hx
      linear_combination -he
    linear_combination -4 * this
  have d0 : ∀ A : (WM a).Point, A + A = 0 → A = 0 ∨ ∃ h, A = Point.some 0 0 h := by
    rintro (_ | ⟨x, y, h⟩) hA
    · exact Or.inl rfl
    · by_cases hy : y = 0
      · obtain rfl := t2 x y h hy
        subst hy
        exact Or.inr ⟨h, rfl⟩
      · obtain ⟨Y, hn, e⟩ := double_x h2 h hy
        rw [e] at hA
        exact absurd hA (Point.some_ne_zero _)
  have d1 : ∀ (A : (WM a).Point) h, A + A = Point.some 0 0 h → ∃ y h', A = Point.some (-1) y h' := by
    rintro (_ | ⟨x, y, h⟩) h0 hA
    · exact absurd (hA.symm.trans (add_zero _)) (Point.some_ne_zero _)
    · by_cases hy : y = 0
      · subst hy
        rw [double_y_zero] at hA
        exact absurd hA.symm (Point.some_ne_zero _)
      · obtain ⟨Y, hn, e⟩ := double_x h2 h hy
        rw [e, Point.some.injEq] at hA
        have hx : x ^ 2 - 1 = 0 := by
          have := pow_eq_zero_iff (two_ne_zero) |>.1 hA.1
          rcases div_eq_zero_iff.1 this with h | h
          · exact h
          · exact absurd h (mul_ne_zero h2 hy)
        have : (x - 1) * (x + 1) = 0 := by linear_combination hx
        rcases mul_eq_zero.1 this with h1 | h1
        · exfalso
          apply ha2
          have hx1 : x = 1 := sub_eq_zero.1 h1
          subst hx1
          exact ⟨y, by linear_combination -(wm_eq h)⟩
        · have hx1 : x = -1 := eq_neg_of_add_eq_zero_left h1
          subst hx1
          exact ⟨y, h, rfl⟩
  have d2 : ∀ (A : (WM a).Point) y h, A + A ≠ Point.some (-1) y h := by
    rintro (_ | ⟨x, y, h⟩) y' h0 hA
    · exact absurd (hA.symm.trans (add_zero _)) (Point.some_ne_zero _)
    · by_cases hy : y = 0
      · subst hy
        rw [double_y_zero] at hA
        exact absurd hA.symm (Point.some_ne_zero _)
      · obtain ⟨Y, hn, e⟩ := double_x h2 h hy
        rw [e, Point.some.injEq] at hA
        exact hm1 ⟨_, by rw [← sq]; exact hA.1.symm⟩
  have e4 : ∀ A : (WM a).Point, 4 • A = (A + A) + (A + A) := four_nsmul
  have e8 : ∀ A : (WM a).Point, 8 • A = 4 • (A + A) := eight_nsmul
  have h8 : ∀ A : (WM a).Point, 8 • A = 0 → 4 • A = 0 := by
    intro A hA
    rw [e8, e4] at hA
    rw [e4]
    rcases d0 _ hA with h | ⟨h, hh⟩
    · exact h
    · obtain ⟨y, h', hy⟩ := d1 _ _ hh
      exact absurd hy (d2 _ _ _)
  have h00 : (WM a).Nonsingular 0 0 := by
    rw [WeierstrassCurve.Affine.nonsingular_iff, WeierstrassCurve.Affine.equation_iff]
    simp
  by_cases hs : ∃ y, y ^ 2 = a - 2
  · obtain ⟨y, hy⟩ := hs
    have hm : ∀ w : F, w ^ 2 = a - 2 → (WM a).Nonsingular (-1) w := by
      intro w hw
      have hw0 : w ≠ 0 := by
        rintro rfl
        apply hdisc
        refine ⟨0, ?_⟩
        linear_combination -(a + 2) * hw
      rw [WeierstrassCurve.Affine.nonsingular_iff, WeierstrassCurve.Affine.equation_iff]
      refine ⟨by simp only; linear_combination hw, Or.inr ?_⟩
      simp only [zero_mul, sub_zero]
      intro h0
      apply hw0
      have : 2 * w = 0 := by linear_combination h0
      exact (mul_eq_zero.1 this).resolve_left h2
    refine not_eight_dvd h8 [0, .some 0 0 h00, .some (-1) y (hm y hy), .some (-1) (-y) (hm (-y) (by rw [neg_sq, hy]))] (by simp) ?_
    intro A hA
    rw [e4] at hA
    rcases d0 _ hA with h | ⟨h, hh⟩
    · rcases d0 _ h with h | ⟨h', h⟩ <;> simp [h]
    · obtain ⟨w, h', rfl⟩ := d1 _ _ hh
      have hw := wm_eq h'
      have : (w - y) * (w + y) = 0 := by linear_combination hw - hy
      rcases mul_eq_zero.1 this with h1 | h1
      · simp [sub_eq_zero.1 h1]
      · simp [eq_neg_of_add_eq_zero_left h1]
  · refine not_eight_dvd h8 [0, .some 0 0 h00] (by simp) ?_
    intro A hA
    rw [e4] at hA
    rcases d0 _ hA with h | ⟨h, hh⟩
    · rcases d0 _ h with h | ⟨h', h⟩ <;> simp [h]
    · obtain ⟨w, h', rfl⟩ := d1 _ _ hh
      exact absurd ⟨w, by linear_combination wm_eq h'⟩ hs

end mont

/-! ## Edwards curves -/

section edw
variable {p : ℕ} [Fact p.Prime] {a d : ZMod p} [Edw.EdCurve a d]

open Edw

/-- `y` together with the parity of `x`. -/
def codeE (A : EPt a d) : ZMod p × Bool := (A.y, decide (A.x.val % 2 = 0))

theorem codeE_injective (h2 : p ≠ 2) : Function.Injective (codeE (a := a) (d := d)) := by
  have hodd : p % 2 = 1 := (Fact.out : p.Prime).eq_two_or_odd.resolve_left h2
  rintro ⟨x, y, h⟩ ⟨x', y', h'⟩ he
  simp only [codeE, Prod.mk.injEq, decide_eq_decide] at he
  obtain ⟨rfl, hpar⟩ := he
  have hne : a - d * y ^ 2 ≠ 0 := by
    intro h0
    have hy : y ≠ 0 := by
      rintro rfl
      apply EdCurve.ne (a := a) (d := d)
      linear_combination h0
    obtain ⟨c, hc⟩ := EdCurve.sq (a := a) (d := d)
    apply EdCurve.nsq (a := a) (d := d)
    refine ⟨c / y, ?_⟩
    field_simp
    linear_combination -h0 + hc
  have : (a - d * y ^ 2) * ((x - x') * (x + x')) = 0 := by linear_combination h - h'
  have hx : x = x' := by
    rcases mul_eq_zero.1 ((mul_eq_zero.1 this).resolve_left hne) with h | h
    · exact sub_eq_zero.1 h
    · have hxn : x = -x' := eq_neg_of_add_eq_zero_left h
      by_cases h0 : x' = 0
      · rw [hxn, h0, neg_zero]
      · haveI : NeZero x' := ⟨h0⟩
        rw [hxn, ZMod.val_neg_of_ne_zero] at hpar
        have := x'.val_lt
        omega
  subst hx
  rfl

theorem finiteE (h2 : p ≠ 2) : Finite (EPt a d) := Finite.of_injective _ (codeE_injective h2)

theorem card_leE (h2 : p ≠ 2) : Nat.card (EPt a d) ≤ 2 * p := by
  have := Nat.card_le_card_of_injective _ (codeE_injective (a := a) (d := d) h2)
  refine this.trans ?_
  rw [Nat.card_eq_fintype_card, Fintype.card_prod, ZMod.card, Fintype.card_bool]
  omega

/-- If `a = 1` and `1 - d` is not a square, then `8` does not divide the number of points. -/
theorem edw_not_eight_dvd (h2 : p ≠ 2) (ha : a = 1) (h1d : ¬ IsSquare (1 - d)) : ¬ 8 ∣ Nat.card (EPt a d) := by
  haveI := finiteE (a := a) (d := d) h2
  have two : (2 : ZMod p) ≠ 0 := EdCurve.two a d
  have hd := d_ne (d := d) a
  have dx : ∀ A : EPt a d, (A + A).x * (1 + d * A.x * A.x * A.y * A.y) = 2 * A.x * A.y := by
    intro A
    rw [add_x, div_mul_cancel₀ _ (complete_add A A)]
    ring
  have dy : ∀ A : EPt a d, (A + A).y * (1 - d * A.x * A.x * A.y * A.y) = A.y ^ 2 - A.x ^ 2 := by
    intro A
    rw [add_y, div_mul_cancel₀ _ (complete_sub A A)]
    linear_combination (-A.x * A.x) * ha
  have xy : ∀ A : EPt a d, (A + A).x = 0 → A.x = 0 ∨ A.y = 0 := by
    intro A h
    have := dx A
    rw [h, zero_mul] at this
    rcases mul_eq_zero.1 this.symm with h | h
    · exact Or.inl ((mul_eq_zero.1 h).resolve_left two)
    · exact Or.inr h
  have cur : ∀ A : EPt a d, A.x ^ 2 + A.y ^ 2 = 1 + d * A.x ^ 2 * A.y ^ 2 := fun A => by
    linear_combination A.h - A.x ^ 2 * ha
  have d0 : ∀ A : EPt a d, A + A = 0 → A.x = 0 ∧ (A.y = 1 ∨ A.y = -1) := by
    intro A h
    have hx : A.x = 0 := by
      rcases xy A (by rw [h]; rfl) with hx | hy
      · exact hx
      · exfalso
        have h1 := dy A
        have h3 := cur A
        rw [h, zero_y, hy] at h1
        rw [hy] at h3
        apply two
        linear_combination h1 - h3
    refine ⟨hx, ?_⟩
    have h3 := cur A
    rw [hx] at h3
    have : (A.y - 1) * (A.y + 1) = 0 := by linear_combination h3
    rcases mul_eq_zero.1 this with h | h
    · exact Or.inl (sub_eq_zero.1 h)
    · exact Or.inr (eq_neg_of_add_eq_zero_left h)
  have d1 : ∀ A : EPt a d, (A + A).x = 0 → (A + A).y = -1 → A.y = 0 ∧ (A.x = 1 ∨ A.x = -1) := by
    intro A h hy
    have hy0 : A.y = 0 := by
      rcases xy A h with hx | h0
      · exfalso
        have h1 := dy A
        have h3 := cur A
        rw [hy, hx] at h1
        rw [hx] at h3
        apply two
        linear_combination -h1 - h3
      · exact h0
    refine ⟨hy0, ?_⟩
    have h3 := cur A
    rw [hy0] at h3
    have : (A.x - 1) * (A.x + 1) = 0 := by linear_combination h3
    rcases mul_eq_zero.1 this with h | h
    · exact Or.inl (sub_eq_zero.1 h)
    · exact Or.inr (eq_neg_of_add_eq_zero_left h)
  have d2 : ∀ A : EPt a d, (A + A).y ≠ 0 := by
    intro A h
    have h1 := dy A
    rw [h, zero_mul] at h1
    have h3 := cur A
    apply h1d
    refine ⟨1 - d * A.x ^ 2, ?_⟩
    have hy : A.y ^ 2 = A.x ^ 2 := by linear_combination -h1
    rw [hy] at h3
    linear_combination d * h3
  have e4 : ∀ A : EPt a d, 4 • A = (A + A) + (A + A) := four_nsmul
  have e8 : ∀ A : EPt a d, 8 • A = 4 • (A + A) := eight_nsmul
  have ext : ∀ A B : EPt a d, A.x = B.x → A.y = B.y → A = B := by
    rintro ⟨x, y, h⟩ ⟨x', y', h'⟩ rfl rfl; rfl
  have h8 : ∀ A : EPt a d, 8 • A = 0 → 4 • A = 0 := by
    intro A hA
    rw [e8, e4] at hA
    rw [e4]
    obtain ⟨hx, hy | hy⟩ := d0 _ hA
    · exact ext _ _ hx hy
    · exact absurd (d1 _ hx hy).1 (d2 A)
  let pt : (x y : ZMod p) → x ^ 2 + y ^ 2 = 1 + d * x ^ 2 * y ^ 2 → EPt a d := fun x y h => ⟨x, y, by rw [ha, one_mul]; exact h⟩
  refine not_eight_dvd h8 [pt 0 1 (by ring), pt 0 (-1) (by ring), pt 1 0 (by ring), pt (-1) 0 (by ring)] (by simp) ?_
  intro A hA
  rw [e4] at hA
  have hmem : ∀ x y h, A.x = x → A.y = y → A = pt x y h := fun x y h hx hy => ext _ _ hx hy
  obtain ⟨hx, hy | hy⟩ := d0 _ hA
  · obtain ⟨hx, hy | hy⟩ := d0 A (ext _ _ hx hy)
    · simp [hmem 0 1 (by ring) hx hy]
    · simp [hmem 0 (-1) (by ring) hx hy]
  · obtain ⟨hy, hx | hx⟩ := d1 A hx hy
    · simp [hmem 1 0 (by ring) hx hy]
    · simp [hmem (-1) 0 (by ring) hx hy]

end edw

end Redox.Cof
