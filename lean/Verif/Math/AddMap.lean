import Mathlib.Algebra.Group.Basic
import Mathlib.Data.Finset.Card
import Mathlib.Tactic.Abel

/-!
# Maps that are additive up to sign

A map between abelian groups that satisfies `f (P + Q) = ±(f P + f Q)` wherever `f P ≠ ± f Q` is a homomorphism, provided that
the target has no element of order two and the image is not tiny.
-/

namespace Redox.AddMap

variable {G H : Type*} [AddCommGroup G] [AddCommGroup H] {f : G → H}

theorem step1 (odd : ∀ P, f (-P) = -f P) (two : ∀ v : H, v + v = 0 → v = 0)
    (hR : ∀ P Q, f P ≠ f Q → f P ≠ -f Q → f (P + Q) = f P + f Q ∨ f (P + Q) = -(f P + f Q))
    {P Q : G} (hP : f P ≠ 0) (hQ : f Q ≠ 0) (h1 : f P ≠ f Q) (h2 : f P ≠ -f Q) (h3 : f P ≠ -(f Q + f Q)) :
    f (P + Q) = f P + f Q := by
  rcases hR P Q h1 h2 with h | h
  · exact h
  · exfalso
    have n1 : f (P + Q) ≠ f (-Q) := by
      rw [odd, h]; intro h'
      apply hP
      have : f P = -(-(f P + f Q)) - f Q := by abel
      rw [this, h']; abel
    have n2 : f (P + Q) ≠ -f (-Q) := by
      rw [odd, h, neg_neg]; intro h'
      apply h3
      have : f P = -(-(f P + f Q)) - f Q := by abel
      rw [this, h']; abel
    rcases hR (P + Q) (-Q) n1 n2 with h' | h' <;> rw [add_neg_cancel_right, odd, h] at h'
    · apply h2
      have : (f P + f Q) + (f P + f Q) = 0 := by
        have e : (f P + f Q) + (f P + f Q) = f P - (-(f P + f Q) + -f Q) := by abel
        rw [e, ← h', sub_self]
      exact eq_neg_of_add_eq_zero_left (two _ this)
    · apply hQ
      apply two
      have e : f Q + f Q = -(-(f P + f Q) + -f Q) - f P := by abel
      rw [e, ← h', sub_self]

open Classical in
/-- A half of `v`, if there is one. -/
noncomputable def half (v : H) : H := if h : ∃ t, t + t = v then h.choose else 0

theorem eq_half (two : ∀ v : H, v + v = 0 → v = 0) {t v : H} (h : t + t = v) : t = half v := by
  have hex : ∃ t, t + t = v := ⟨t, h⟩
  rw [half, dif_pos hex]
  have hc := hex.choose_spec
  rw [← sub_eq_zero]
  apply two
  have : t - hex.choose + (t - hex.choose) = (t + t) - (hex.choose + hex.choose) := by abel
  rw [this, h, hc, sub_self]

open Classical in
theorem additive (h0 : f 0 = 0) (odd : ∀ P, f (-P) = -f P) (two : ∀ v : H, v + v = 0 → v = 0)
    (hR : ∀ P Q, f P ≠ f Q → f P ≠ -f Q → f (P + Q) = f P + f Q ∨ f (P + Q) = -(f P + f Q))
    (big : ∀ s : Finset H, s.card ≤ 12 → ∃ R, f R ∉ s) (P Q : G) : f (P + Q) = f P + f Q := by
  have S : ∀ {P Q : G}, f P ≠ 0 → f Q ≠ 0 → f P ≠ f Q → f P ≠ -f Q → f Q ≠ half (-f P) → f (P + Q) = f P + f Q := by
    intro P Q a b c d e
    refine step1 odd two hR a b c d fun h => e (eq_half two ?_)
    rw [h, neg_neg]
  -- one point in the kernel
  have A : ∀ P Q, f P = 0 → f Q ≠ 0 → f (P + Q) = f Q := by
    intro P Q hP hQ
    have hPQ := hR P Q (by rw [hP]; exact hQ.symm) (by rw [hP]; exact fun h => hQ (neg_eq_zero.1 h.symm))
    rw [hP, zero_add] at hPQ
    rcases hPQ with h | h
    · exact h
    · exfalso
      obtain ⟨R, hRs⟩ := big {0, f Q, -f Q, half (-f Q), half (f Q)} (le_trans Finset.card_le_five (by decide))
      simp only [Finset.mem_insert, Finset.mem_singleton, not_or] at hRs
      obtain ⟨r0, r1, r2, r3, r4⟩ := hRs
      have e1 := S (P := Q) (Q := R) hQ r0 (Ne.symm r1) (fun h => r2 (by rw [h, neg_neg])) r3
      have e2 := S (P := P + Q) (Q := R) (by rw [h]; exact neg_ne_zero.2 hQ) r0 (by rw [h]; exact Ne.symm r2)
        (by rw [h]; exact fun h => r1 (neg_inj.1 h).symm) (by rw [h, neg_neg]; exact r4)
      have nz : f (Q + R) ≠ 0 := by
        rw [e1]; intro h; exact r2 (eq_neg_of_add_eq_zero_right h)
      have e3 := hR P (Q + R) (by rw [hP]; exact nz.symm) (by rw [hP]; exact fun h => nz (neg_eq_zero.1 h.symm))
      rw [hP, zero_add, ← add_assoc, e2, e1, h] at e3
      rcases e3 with e3 | e3
      · apply hQ; apply two
        have e : f Q + f Q = (f Q + f R) - (-f Q + f R) := by abel
        rw [e, e3, sub_self]
      · apply r0; apply two
        have e : f R + f R = (-f Q + f R) - (-(f Q + f R)) := by abel
        rw [e, e3, sub_self]
  -- both points in the kernel
  have B : ∀ P Q, f P = 0 → f Q = 0 → f (P + Q) = 0 := by
    intro P Q hP hQ
    by_contra hv
    obtain ⟨R, hRs⟩ := big {0, f (P + Q), -f (P + Q), half (-f (P + Q))} (le_trans Finset.card_le_four (by decide))
    simp only [Finset.mem_insert, Finset.mem_singleton, not_or] at hRs
    obtain ⟨r0, r1, r2, r3⟩ := hRs
    have e1 := S (P := P + Q) (Q := R) hv r0 (Ne.symm r1) (fun h => r2 (by rw [h, neg_neg])) r3
    have e2 := A Q R hQ r0
    have e3 := A P (Q + R) hP (by rw [e2]; exact r0)
    rw [← add_assoc, e2, e1] at e3
    exact hv (by simpa using e3)
  by_cases hP : f P = 0
  · by_cases hQ : f Q = 0
    · rw [B P Q hP hQ, hP, hQ, add_zero]
    · rw [A P Q hP hQ, hP, zero_add]
  by_cases hQ : f Q = 0
  · rw [add_comm, A Q P hQ hP, hQ, add_zero]
  obtain ⟨R, hRs⟩ := big ({0, f Q, -f Q, half (-f Q)} ∪ {-f Q + f P, -f Q + -f P, -f Q + half (-f P)} ∪
      {f (P + Q), -f (P + Q), half (-f (P + Q))}) (by
    refine le_trans (Finset.card_union_le _ _) ?_
    refine le_trans (Nat.add_le_add (Finset.card_union_le _ _) le_rfl) ?_
    exact le_trans (Nat.add_le_add (Nat.add_le_add Finset.card_le_four Finset.card_le_three) Finset.card_le_three)
      (by decide))
  simp only [Finset.mem_union, Finset.mem_insert, Finset.mem_singleton, not_or] at hRs
  obtain ⟨⟨⟨r0, r1, r2, r3⟩, s1, s2, s3⟩, t1, t2, t3⟩ := hRs
  have e1 := S (P := Q) (Q := R) hQ r0 (Ne.symm r1) (fun h => r2 (by rw [h, neg_neg])) r3
  have sh : ∀ v, f Q + f R = v → f R = -f Q + v := fun v h => by rw [← h]; abel
  have e2 := S (P := P) (Q := Q + R) hP
    (by rw [e1]; intro h; exact r2 (by rw [sh _ h, add_zero]))
    (by rw [e1]; intro h; exact s1 (sh _ h.symm))
    (by rw [e1]; intro h; exact s2 (sh _ (by rw [h, neg_neg])))
    (by rw [e1]; intro h; exact s3 (sh _ h))
  rw [← add_assoc, e1] at e2
  by_cases hv : f (P + Q) = 0
  · have e3 := A (P + Q) R hv r0
    rw [e3] at e2
    rw [hv]
    have : f P + f Q = f P + (f Q + f R) - f R := by abel
    rw [this, ← e2, sub_self]
  · have e3 := S (P := P + Q) (Q := R) hv r0 (Ne.symm t1) (fun h => t2 (by rw [h, neg_neg])) t3
    rw [e3] at e2
    have : f P + f Q = f P + (f Q + f R) - f R := by abel
    rw [this, ← e2]; abel

open Classical in
/-- A map that is additive on the pairs with `f P ≠ ± f Q` is additive, provided that the image is not tiny. -/
theorem additive_of_generic (hR : ∀ P Q, f P ≠ f Q → f P ≠ -f Q → f (P + Q) = f P + f Q)
    (big : ∀ s : Finset H, s.card ≤ 6 → ∃ R, f R ∉ s) (P Q : G) : f (P + Q) = f P + f Q := by
  obtain ⟨R, hs⟩ := big {f Q, -f Q, f P - f Q, -f P - f Q, f (P + Q), -f (P + Q)} Finset.card_le_six
  simp only [Finset.mem_insert, Finset.mem_singleton, not_or] at hs
  obtain ⟨r1, r2, r3, r4, r5, r6⟩ := hs
  have e1 : f (Q + R) = f Q + f R := hR Q R (Ne.symm r1) (fun h => r2 (by rw [h, neg_neg]))
  have e2 : f (P + (Q + R)) = f P + f (Q + R) := by
    refine hR _ _ ?_ ?_ <;> rw [e1] <;> intro h
    · exact r3 (by rw [h]; abel)
    · exact r4 (by rw [h]; abel)
  have e3 : f (P + Q + R) = f (P + Q) + f R := hR _ _ (Ne.symm r5) (fun h => r6 (by rw [h, neg_neg]))
  rw [add_assoc, e2, e1, ← add_assoc] at e3
  exact (add_right_cancel e3).symm

end Redox.AddMap
