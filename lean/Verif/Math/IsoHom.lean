import Verif.Math.RCB
import Verif.Math.AddMap

/-!
# Maps `(x, y) ↦ (N(x)/d(x)², y M(x)/d(x)³)` that respect the abscissa of sums are homomorphisms
-/

namespace Redox.IsoHom

open WeierstrassCurve RCB

variable {F : Type*} [Field F] [DecidableEq F] {a b A B : F}

/-- Points with equal abscissa are equal or opposite. -/
theorem eq_or_neg {x y y' : F} (h : (W a b).Nonsingular x y) (h' : (W a b).Nonsingular x y') :
    (Affine.Point.some x y h : (W a b).Point) = .some x y' h' ∨ (Affine.Point.some x y h : (W a b).Point) = -.some x y' h' := by
  have e1 := ((nonsingular_iff _ _ _ _).1 h).1
  have e2 := ((nonsingular_iff _ _ _ _).1 h').1
  have e3 : y ^ 2 = y' ^ 2 := by rw [e1, e2]
  rcases sq_eq_sq_iff_eq_or_eq_neg.1 e3 with rfl | rfl
  · exact Or.inl rfl
  · right
    rw [Affine.Point.neg_some]
    simp [Affine.negY]

/-- The abscissa of a sum. -/
theorem add_abscissa {x1 y1 x2 y2 : F} (h1 : (W a b).Nonsingular x1 y1) (h2 : (W a b).Nonsingular x2 y2) (hx : x1 ≠ x2) :
    ∃ y3 h3, (Affine.Point.some x1 y1 h1 : (W a b).Point) + .some x2 y2 h2 =
      .some (((x1 * x2 + a) * (x1 + x2) + 2 * b + y1 * y2 * (-2)) / (x1 - x2) ^ 2) y3 h3 := by
  have e1 := ((nonsingular_iff _ _ _ _).1 h1).1
  have e2 := ((nonsingular_iff _ _ _ _).1 h2).1
  have e : (W a b).addX x1 x2 ((W a b).slope x1 x2 y1 y2) =
      ((x1 * x2 + a) * (x1 + x2) + 2 * b + y1 * y2 * (-2)) / (x1 - x2) ^ 2 := by
    rw [Affine.slope_of_X_ne hx]
    simp only [Affine.addX]
    have : x1 - x2 ≠ 0 := sub_ne_zero.2 hx
    field_simp
    linear_combination e1 + e2
  have hn := Affine.nonsingular_add h1 h2 fun hxy => hx hxy.1
  refine ⟨_, e ▸ hn, ?_⟩
  rw [Affine.Point.add_of_X_ne hx, Affine.Point.some.injEq]
  exact ⟨e, rfl⟩

variable {f : (W a b).Point → (W A B).Point} {N d M : F → F}

theorem odd (h0 : f 0 = 0) (hk : ∀ x y h, d x = 0 → f (.some x y h) = 0)
    (hn : ∀ x y h, d x ≠ 0 → ∃ h', f (.some x y h) = .some (N x / d x ^ 2) (y * (M x / d x ^ 3)) h') (P : (W a b).Point) :
    f (-P) = -f P := by
  rcases P with _ | ⟨x, y, h⟩
  · change f (-0) = -f 0
    rw [neg_zero, h0, neg_zero]
  · rw [Affine.Point.neg_some]
    by_cases hd : d x = 0
    · rw [hk _ _ _ hd, hk _ _ _ hd, neg_zero]
    · obtain ⟨h1, e1⟩ := hn x y h hd
      obtain ⟨h2, e2⟩ := hn x _ ((Affine.nonsingular_neg ..).mpr h) hd
      rw [e1, e2, Affine.Point.neg_some]
      simp [Affine.negY]

theorem sum (hk : ∀ x y h, d x = 0 → f (.some x y h) = 0)
    (hn : ∀ x y h, d x ≠ 0 → ∃ h', f (.some x y h) = .some (N x / d x ^ 2) (y * (M x / d x ^ 3)) h')
    (hN : ∀ x, d x = 0 → N x ≠ 0)
    (hid : ∀ x1 x2 w, w ^ 2 = (x1 ^ 3 + a * x1 + b) * (x2 ^ 3 + a * x2 + b) → x1 ≠ x2 →
      N (((x1 * x2 + a) * (x1 + x2) + 2 * b + w * (-2)) / (x1 - x2) ^ 2) * (N x2 * d x1 ^ 2 - N x1 * d x2 ^ 2) ^ 2 =
      d (((x1 * x2 + a) * (x1 + x2) + 2 * b + w * (-2)) / (x1 - x2) ^ 2) ^ 2 *
        ((N x1 * N x2 + A * (d x1 ^ 2 * d x2 ^ 2)) * (N x1 * d x2 ^ 2 + N x2 * d x1 ^ 2) +
          2 * B * (d x1 ^ 2 * d x2 ^ 2) ^ 2 + w * (-2 * (M x1 * M x2 * (d x1 * d x2)))))
    {x1 y1 x2 y2 : F} (h1 : (W a b).Nonsingular x1 y1) (h2 : (W a b).Nonsingular x2 y2) (hx : x1 ≠ x2) (hd2 : d x2 ≠ 0)
    (n1 : f (.some x1 y1 h1) ≠ f (.some x2 y2 h2)) (n2 : f (.some x1 y1 h1) ≠ -f (.some x2 y2 h2)) :
    f (.some x1 y1 h1 + .some x2 y2 h2) = f (.some x1 y1 h1) + f (.some x2 y2 h2) ∨
      f (.some x1 y1 h1 + .some x2 y2 h2) = -(f (.some x1 y1 h1) + f (.some x2 y2 h2)) := by
  have e1 := ((nonsingular_iff _ _ _ _).1 h1).1
  have e2 := ((nonsingular_iff _ _ _ _).1 h2).1
  obtain ⟨y3, h3, hs⟩ := add_abscissa h1 h2 hx
  have hi := hid x1 x2 (y1 * y2) (by rw [mul_pow, e1, e2]) hx
  rw [hs]
  revert hi h3
  generalize ((x1 * x2 + a) * (x1 + x2) + 2 * b + y1 * y2 * (-2)) / (x1 - x2) ^ 2 = x3
  intro h3 _ hi
  obtain ⟨k2, f2⟩ := hn x2 y2 h2 hd2
  by_cases hd1 : d x1 = 0
  · have hN1 := hN x1 hd1
    rw [hd1] at hi
    have hi' : N x3 * d x2 ^ 2 = d x3 ^ 2 * N x2 := by
      have : N x1 ^ 2 * d x2 ^ 2 ≠ 0 := mul_ne_zero (pow_ne_zero _ hN1) (pow_ne_zero _ hd2)
      apply mul_left_cancel₀ this
      linear_combination hi
    have hd3 : d x3 ≠ 0 := by
      intro h
      rw [h] at hi'
      have : N x3 * d x2 ^ 2 = 0 := by rw [hi']; ring
      exact (mul_ne_zero (hN x3 h) (pow_ne_zero _ hd2)) this
    obtain ⟨k3, f3⟩ := hn x3 y3 h3 hd3
    rw [hk _ _ _ hd1, zero_add, f2, f3]
    have : N x3 / d x3 ^ 2 = N x2 / d x2 ^ 2 := by
      rw [div_eq_div_iff (pow_ne_zero _ hd3) (pow_ne_zero _ hd2)]
      linear_combination hi'
    revert k3
    rw [this]
    intro k3 _
    exact eq_or_neg k3 k2
  · obtain ⟨k1, f1⟩ := hn x1 y1 h1 hd1
    rw [f1, f2] at n1 n2 ⊢
    have hX : N x1 / d x1 ^ 2 ≠ N x2 / d x2 ^ 2 := by
      intro h
      clear f1
      revert k1
      rw [h]
      intro k1 n2 n1
      rcases eq_or_neg k1 k2 with h | h
      · exact n1 h
      · exact n2 h
    have hD : N x2 * d x1 ^ 2 - N x1 * d x2 ^ 2 ≠ 0 := by
      intro h
      apply hX
      rw [div_eq_div_iff (pow_ne_zero _ hd1) (pow_ne_zero _ hd2)]
      linear_combination -h
    have hd3 : d x3 ≠ 0 := by
      intro h
      rw [h] at hi
      have : N x3 * (N x2 * d x1 ^ 2 - N x1 * d x2 ^ 2) ^ 2 = 0 := by rw [hi]; ring
      exact (mul_ne_zero (hN x3 h) (pow_ne_zero _ hD)) this
    obtain ⟨k3, f3⟩ := hn x3 y3 h3 hd3
    obtain ⟨y4, k4, hs'⟩ := add_abscissa k1 k2 hX
    rw [hs', f3]
    have : N x3 / d x3 ^ 2 = ((N x1 / d x1 ^ 2 * (N x2 / d x2 ^ 2) + A) * (N x1 / d x1 ^ 2 + N x2 / d x2 ^ 2) + 2 * B +
        y1 * (M x1 / d x1 ^ 3) * (y2 * (M x2 / d x2 ^ 3)) * (-2)) / (N x1 / d x1 ^ 2 - N x2 / d x2 ^ 2) ^ 2 := by
      have hX' : N x1 / d x1 ^ 2 - N x2 / d x2 ^ 2 ≠ 0 := sub_ne_zero.2 hX
      rw [div_eq_div_iff (pow_ne_zero _ hd3) (pow_ne_zero _ hX')]
      field_simp
      linear_combination hi
    revert k3
    rw [this]
    intro k3 _
    exact eq_or_neg k3 k4

theorem additive (h0 : f 0 = 0) (hk : ∀ x y h, d x = 0 → f (.some x y h) = 0)
    (hn : ∀ x y h, d x ≠ 0 → ∃ h', f (.some x y h) = .some (N x / d x ^ 2) (y * (M x / d x ^ 3)) h')
    (hN : ∀ x, d x = 0 → N x ≠ 0)
    (hid : ∀ x1 x2 w, w ^ 2 = (x1 ^ 3 + a * x1 + b) * (x2 ^ 3 + a * x2 + b) → x1 ≠ x2 →
      N (((x1 * x2 + a) * (x1 + x2) + 2 * b + w * (-2)) / (x1 - x2) ^ 2) * (N x2 * d x1 ^ 2 - N x1 * d x2 ^ 2) ^ 2 =
      d (((x1 * x2 + a) * (x1 + x2) + 2 * b + w * (-2)) / (x1 - x2) ^ 2) ^ 2 *
        ((N x1 * N x2 + A * (d x1 ^ 2 * d x2 ^ 2)) * (N x1 * d x2 ^ 2 + N x2 * d x1 ^ 2) +
          2 * B * (d x1 ^ 2 * d x2 ^ 2) ^ 2 + w * (-2 * (M x1 * M x2 * (d x1 * d x2)))))
    (two : ∀ v : (W A B).Point, v + v = 0 → v = 0)
    (xs : Finset F) (hxs : 12 < xs.card) (himg : ∀ X ∈ xs, ∃ P Y hY, f P = .some X Y hY) (P Q : (W a b).Point) :
    f (P + Q) = f P + f Q := by
  have ho := odd h0 hk hn
  refine AddMap.additive h0 ho two ?_ ?_ P Q
  · intro P Q n1 n2
    rcases P with _ | ⟨x1, y1, h1⟩
    · left
      change f (0 + Q) = f 0 + f Q
      rw [h0, zero_add, zero_add]
    rcases Q with _ | ⟨x2, y2, h2⟩
    · left
      change f (_ + 0) = _ + f 0
      rw [h0, add_zero, add_zero]
    have hx : x1 ≠ x2 := by
      rintro rfl
      rcases eq_or_neg h1 h2 with h | h
      · exact n1 (by rw [h])
      · exact n2 (by rw [h, ho])
    by_cases hd2 : d x2 = 0
    · by_cases hd1 : d x1 = 0
      · exact absurd (by rw [hk _ _ _ hd1, hk _ _ _ hd2]) n1
      · rw [add_comm, add_comm (f _)]
        exact sum hk hn hN hid h2 h1 (Ne.symm hx) hd1 (Ne.symm n1) (fun h => n2 (by rw [h, neg_neg]))
    · exact sum hk hn hN hid h1 h2 hx hd2 n1 n2
  · intro s hs
    classical
    let ab : (W A B).Point → Option F := fun P => match P with
      | .zero => none
      | .some x _ _ => some x
    obtain ⟨X, hX, hXs⟩ := Finset.exists_mem_notMem_of_card_lt_card (s := s.image ab) (t := xs.map ⟨some, Option.some_injective F⟩)
      (by rw [Finset.card_map]; exact lt_of_le_of_lt (le_trans Finset.card_image_le hs) hxs)
    obtain ⟨x, hx, rfl⟩ := Finset.mem_map.1 hX
    obtain ⟨P, Y, hY, e⟩ := himg x hx
    refine ⟨P, fun hP => hXs ?_⟩
    refine Finset.mem_image.2 ⟨f P, hP, ?_⟩
    rw [e]; rfl

end Redox.IsoHom
