import Verif.Props.WeierPoints
import Verif.Props.MontPoints
import Verif.Props.EdwPoints
import Verif.Props.EdwIncomplete
import Verif.Props.DisplayProps

/-!
# C90: normalised points
-/

set_option linter.unusedSectionVars false

namespace Redox.Props

open Spec WLink Weierstrass

section
variable (p : ℕ) [Fact p.Prime] (e : Weierstrass.Curve)

/-- C90, Weierstrass: `normalize` of a representative of an affine point returns exactly its affine coordinates with `z = 1`; the result is `==` to
the argument and normalising again changes nothing. -/
theorem _root_.Redox.Props.C90_weierstrass (he : WCurve p e) (P : Weierstrass.Point) (x y : ZMod p) (hn : (wGroup p e).Nonsingular x y)
    (hP : WDenotes p e P (.some x y hn)) :
    ∃ N, P.normalize = R.ok N ∧ N.e = e ∧ Canon p N.c.x ∧ Canon p N.c.y ∧ val p N.c.x = x ∧ val p N.c.y = y ∧ N.c.z.n = 1 ∧ N.c.z.f = e.f ∧
      WDenotes p e N (.some x y hn) ∧ P.eq N = R.ok true ∧ N.normalize = R.ok N := by
  have hr := hP
  obtain ⟨X, Y, Z, rfl, hz, hx, hy⟩ := denotes_iff.1 hP
  have hX : X * Z⁻¹ = x := by rw [hx, mul_assoc, mul_inv_cancel₀ hz, mul_one]
  have hY : Y * Z⁻¹ = y := by rw [hy, mul_assoc, mul_inv_cancel₀ hz, mul_one]
  have hN := normalize_pt he X Y Z
  rw [hX, hY] at hN
  have hd : WDenotes p e (pt e x y 1) (.some x y hn) := denotes_iff.2 ⟨_, _, _, rfl, one_ne_zero, by rw [mul_one], by rw [mul_one]⟩
  have h2 : 2 < p := two_lt_of he
  have : Fact (1 < p) := ⟨by omega⟩
  refine ⟨_, hN, rfl, canon_el _, canon_el _, val_el _, val_el _, cast_one_int, he.field.symm, hd, ?_, ?_⟩
  · rw [C27_eq p e _ _ _ _ hr hd]; simp
  · have := normalize_pt he x y 1
    rwa [inv_one, mul_one, mul_one] at this

/-- C90, Weierstrass: for any two representatives of affine points, the normalised values are identical, in every coordinate, exactly if the points
are `==`; and exactly then they print alike. -/
theorem _root_.Redox.Props.C90_weierstrass_eq (he : WCurve p e) (P Q : Weierstrass.Point) (A B : (wGroup p e).Point) (hP : WDenotes p e P A)
    (hQ : WDenotes p e Q B) (hA : A ≠ 0) (hB : B ≠ 0) :
    ∃ N M s t, P.normalize = R.ok N ∧ Q.normalize = R.ok M ∧ (N = M ↔ P.eq Q = R.ok true) ∧ N.display = R.ok s ∧ M.display = R.ok t ∧
      (s = t ↔ P.eq Q = R.ok true) := by
  rcases A with _ | ⟨x, y, hn⟩
  · exact absurd rfl hA
  rcases B with _ | ⟨x', y', hn'⟩
  · exact absurd rfl hB
  obtain ⟨N, h1, h2, hcx, hcy, h3, h4, h5, h5', h6, -, -⟩ := Redox.Props.C90_weierstrass p e he P x y hn hP
  obtain ⟨M, k1, k2, kcx, kcy, k3, k4, k5, k5', k6, -, -⟩ := Redox.Props.C90_weierstrass p e he Q x' y' hn' hQ
  have hcz : ∀ N : Weierstrass.Point, N.c.z.n = 1 → N.c.z.f = e.f → Canon p N.c.z := fun N h hf =>
    ⟨by rw [hf, he.field], by rw [h]; norm_num, by rw [h]; exact_mod_cast he.prime.one_lt⟩
  obtain ⟨s, t, hs, ht, hst⟩ := (C64_point_partial p he.prime.one_le).1 N M (by rw [h2, k2]) hcx hcy (hcz N h5 h5') kcx kcy (hcz M k5 k5')
  have hNM : N = M ↔ P.eq Q = R.ok true := by
    rw [C27_eq p e _ _ _ _ hP hQ, R.ok.injEq, decide_eq_true_eq]
    constructor
    · rintro rfl
      have hx : x = x' := by rw [← h3, k3]
      have hy : y = y' := by rw [← h4, k4]
      subst hx hy
      rfl
    · intro h
      obtain ⟨hx, hy⟩ := WeierstrassCurve.Affine.Point.some.inj h
      obtain ⟨Ne, ⟨Nx, Ny, ⟨nz, fz⟩⟩⟩ := N
      obtain ⟨Me, ⟨Mx, My, ⟨mz, gz⟩⟩⟩ := M
      simp only at h2 hcx hcy h3 h4 h5 h5' k2 kcx kcy k3 k4 k5 k5'
      rw [hcx.eq_el, hcy.eq_el, kcx.eq_el, kcy.eq_el, h3, h4, k3, k4, h2, k2, h5, k5, h5', k5', hx, hy]
  exact ⟨N, M, s, t, h1, k1, hNM, hs, ht, hst.trans hNM⟩

end

end Redox.Props

namespace Redox.Props.Mo

open Spec MLink Montgomery

section
variable (p : ℕ) [Fact p.Prime] (e : Montgomery.Curve)

/-- C90, Montgomery: `normalize` of a representative of an affine point returns exactly its affine coordinates with `z = 1`; the result is `==` to
the argument and normalising again changes nothing. -/
theorem _root_.Redox.Props.C90_montgomery (he : MCurve p e) (P : Montgomery.Point) (x y : ZMod p) (hn : (mGroup p e).Nonsingular x y)
    (hP : MDenotes p e P (.some x y hn)) :
    ∃ N, P.normalize = R.ok N ∧ N.e = e ∧ Canon p N.c.x ∧ Canon p N.c.y ∧ val p N.c.x = x ∧ val p N.c.y = y ∧ N.c.z.n = 1 ∧ N.c.z.f = e.f ∧
      MDenotes p e N (.some x y hn) ∧ P.eq N = R.ok true ∧ N.normalize = R.ok N := by
  have hr := hP
  obtain ⟨X, Y, Z, rfl, hz, hx, hy⟩ := denotes_iff.1 hP
  have hX : X * Z⁻¹ = x := by rw [hx, mul_assoc, mul_inv_cancel₀ hz, mul_one]
  have hY : Y * Z⁻¹ = y := by rw [hy, mul_assoc, mul_inv_cancel₀ hz, mul_one]
  have hN := normalize_pt he X Y Z
  rw [hX, hY] at hN
  have hd : MDenotes p e (pt e x y 1) (.some x y hn) := denotes_iff.2 ⟨_, _, _, rfl, one_ne_zero, by rw [mul_one], by rw [mul_one]⟩
  have h2 : 2 < p := MLink.two_lt_of he
  have : Fact (1 < p) := ⟨by omega⟩
  refine ⟨_, hN, rfl, canon_el _, canon_el _, val_el _, val_el _, cast_one_int, he.field.symm, hd, ?_, ?_⟩
  · rw [(C32_eq p e _ _ _ _ hr hd).1]; simp
  · have := normalize_pt he x y 1
    rwa [inv_one, mul_one, mul_one] at this

/-- C90, Montgomery: for any two representatives of affine points, the normalised values are identical, in every coordinate, exactly if the points
are `==`; and exactly then they print alike. -/
theorem _root_.Redox.Props.C90_montgomery_eq (he : MCurve p e) (P Q : Montgomery.Point) (A B : (mGroup p e).Point) (hP : MDenotes p e P A)
    (hQ : MDenotes p e Q B) (hA : A ≠ 0) (hB : B ≠ 0) :
    ∃ N M s t, P.normalize = R.ok N ∧ Q.normalize = R.ok M ∧ (N = M ↔ P.eq Q = R.ok true) ∧ N.display = R.ok s ∧ M.display = R.ok t ∧
      (s = t ↔ P.eq Q = R.ok true) := by
  rcases A with _ | ⟨x, y, hn⟩
  · exact absurd rfl hA
  rcases B with _ | ⟨x', y', hn'⟩
  · exact absurd rfl hB
  obtain ⟨N, h1, h2, hcx, hcy, h3, h4, h5, h5', h6, -, -⟩ := Redox.Props.C90_montgomery p e he P x y hn hP
  obtain ⟨M, k1, k2, kcx, kcy, k3, k4, k5, k5', k6, -, -⟩ := Redox.Props.C90_montgomery p e he Q x' y' hn' hQ
  have hcz : ∀ N : Montgomery.Point, N.c.z.n = 1 → N.c.z.f = e.f → Canon p N.c.z := fun N h hf =>
    ⟨by rw [hf, he.field], by rw [h]; norm_num, by rw [h]; exact_mod_cast he.prime.one_lt⟩
  obtain ⟨s, t, hs, ht, hst⟩ := (C64_point_partial p he.prime.one_le).2.1 N M (by rw [h2, k2]) hcx hcy (hcz N h5 h5') kcx kcy (hcz M k5 k5')
  have hNM : N = M ↔ P.eq Q = R.ok true := by
    rw [(C32_eq p e _ _ _ _ hP hQ).1, R.ok.injEq, decide_eq_true_eq]
    constructor
    · rintro rfl
      have hx : x = x' := by rw [← h3, k3]
      have hy : y = y' := by rw [← h4, k4]
      subst hx hy
      rfl
    · intro h
      obtain ⟨hx, hy⟩ := WeierstrassCurve.Affine.Point.some.inj h
      obtain ⟨Ne, ⟨Nx, Ny, ⟨nz, fz⟩⟩⟩ := N
      obtain ⟨Me, ⟨Mx, My, ⟨mz, gz⟩⟩⟩ := M
      simp only at h2 hcx hcy h3 h4 h5 h5' k2 kcx kcy k3 k4 k5 k5'
      rw [hcx.eq_el, hcy.eq_el, kcx.eq_el, kcy.eq_el, h3, h4, k3, k4, h2, k2, h5, k5, h5', k5', hx, hy]
  exact ⟨N, M, s, t, h1, k1, hNM, hs, ht, hst.trans hNM⟩

end

end Redox.Props.Mo

namespace Redox.Props.Ed

open Spec ELink Edwards

section
variable (p : ℕ) [Fact p.Prime] (e : Edwards.Curve) [h : ECurve p e]

/-- C90, Edwards: `normalize` of any representative returns exactly the affine coordinates with `z = 1` and `t = x y`; the result is `==` to the
argument and normalising again changes nothing. -/
theorem _root_.Redox.Props.C90_edwards (P : Edwards.Point) (A : eGroup p e) (hP : EDenotes p e P A) :
    ∃ N, P.normalize = R.ok N ∧ N.e = e ∧ Canon p N.c.x ∧ Canon p N.c.y ∧ Canon p N.c.t ∧ val p N.c.x = A.x ∧ val p N.c.y = A.y ∧
      val p N.c.t = A.x * A.y ∧ N.c.z.n = 1 ∧ N.c.z.f = e.f ∧ EDenotes p e N A ∧ P.eq N = R.ok true ∧ N.normalize = R.ok N := by
  have hr := hP
  obtain ⟨X, Y, T, Z, rfl, hz, hx, hy, ht⟩ := denotes_iff.1 hP
  have hX : X * Z⁻¹ = A.x := by rw [hx, mul_assoc, mul_inv_cancel₀ hz, mul_one]
  have hY : Y * Z⁻¹ = A.y := by rw [hy, mul_assoc, mul_inv_cancel₀ hz, mul_one]
  have hN := ELink.normalize_pt h.params X Y T Z
  rw [hX, hY] at hN
  have hd : EDenotes p e (pt e A.x A.y (A.x * A.y) 1) A :=
    denotes_iff.2 ⟨_, _, _, _, rfl, one_ne_zero, by rw [mul_one], by rw [mul_one], by rw [mul_one]⟩
  have h2 : 2 < p := ELink.two_lt_of h.params
  have : Fact (1 < p) := ⟨by omega⟩
  refine ⟨_, hN, rfl, canon_el _, canon_el _, canon_el _, val_el _, val_el _, val_el _, cast_one_int, h.params.field.symm, hd, ?_, ?_⟩
  · rw [C36_eq p e _ _ _ _ hr hd]; simp
  · have := ELink.normalize_pt h.params A.x A.y (A.x * A.y) 1
    rwa [inv_one, mul_one, mul_one] at this

/-- C90, Edwards: for any two representatives, the normalised values are identical, in every coordinate, exactly if the points are `==`; and
exactly then they print alike. -/
theorem _root_.Redox.Props.C90_edwards_eq (P Q : Edwards.Point) (A B : eGroup p e) (hP : EDenotes p e P A) (hQ : EDenotes p e Q B) :
    ∃ N M s t, P.normalize = R.ok N ∧ Q.normalize = R.ok M ∧ (N = M ↔ P.eq Q = R.ok true) ∧ N.display = R.ok s ∧ M.display = R.ok t ∧
      (s = t ↔ P.eq Q = R.ok true) := by
  obtain ⟨N, h1, h2, hcx, hcy, hct, h3, h4, h4', h5, h5', h6, -, -⟩ := Redox.Props.C90_edwards p e P A hP
  obtain ⟨M, k1, k2, kcx, kcy, kct, k3, k4, k4', k5, k5', k6, -, -⟩ := Redox.Props.C90_edwards p e Q B hQ
  have he := h.params
  have hcz : ∀ N : Edwards.Point, N.c.z.n = 1 → N.c.z.f = e.f → Canon p N.c.z := fun N h hf =>
    ⟨by rw [hf, he.field], by rw [h]; norm_num, by rw [h]; exact_mod_cast he.prime.one_lt⟩
  obtain ⟨s, t, hs, ht, hst⟩ := (C64_point_partial p he.prime.one_le).2.2 N M (by rw [h2, k2]) hcx hcy hct (hcz N h5 h5') kcx kcy kct
    (hcz M k5 k5')
  have hNM : N = M ↔ P.eq Q = R.ok true := by
    rw [C36_eq p e _ _ _ _ hP hQ, R.ok.injEq, decide_eq_true_eq]
    constructor
    · rintro rfl
      exact Edw.EPt.ext (by rw [← h3, k3]) (by rw [← h4, k4])
    · rintro rfl
      obtain ⟨Ne, ⟨Nx, Ny, Nt, ⟨nz, fz⟩⟩⟩ := N
      obtain ⟨Me, ⟨Mx, My, Mt, ⟨mz, gz⟩⟩⟩ := M
      simp only at h2 hcx hcy hct h3 h4 h4' h5 h5' k2 kcx kcy kct k3 k4 k4' k5 k5'
      rw [hcx.eq_el, hcy.eq_el, hct.eq_el, kcx.eq_el, kcy.eq_el, kct.eq_el, h3, h4, h4', k3, k4, k4', h2, k2, h5, k5, h5', k5']
  exact ⟨N, M, s, t, h1, k1, hNM, hs, ht, hst.trans hNM⟩

end

end Redox.Props.Ed

namespace Redox.Props

/-- `G + G` and `G * 2` are different representatives of one point with the same normalised value, on all three kinds of curve. -/
example : (do
    let e ← P256
    let G ← e.getGenerator
    let P ← G.add G
    let Q ← G.mul .debug (← e.newScalar 2)
    return (P == Q, (← P.eq Q), (← P.normalize) == (← Q.normalize))) = R.ok (false, true, true) := by
  decide +kernel

end Redox.Props
