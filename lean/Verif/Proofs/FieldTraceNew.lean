import Verif.Proofs.FieldTraceMaps

/-!
# The elements stored in a map belong to the field
-/

namespace Redox.FT

/-- If `x` returns, then with an element of the field `f`. -/
def Outs (f : Fp) (x : R FpElt) : Prop := ∀ a, x = R.ok a → In f a

variable {f : Fp}

theorem outs_ok {a : FpElt} (h : In f a) : Outs f (R.ok a) := fun b hb => by cases hb; exact h

theorem red_outs {a : FpElt} (h : In f a) (n : ℤ) : Outs f (a.red n) := fun b hb => by
  simp only [FpElt.red, R.bind_eq_ok] at hb
  obtain ⟨k, _, hk⟩ := hb
  cases hk
  exact h

theorem elt_outs (n : ℤ) : Outs f (f.elt n) := fun b hb => by
  simp only [Fp.elt, R.bind_eq_ok] at hb
  obtain ⟨k, _, hk⟩ := hb
  cases hk
  rfl

theorem doIfEq_outs {c : Bool} {x : R FpElt} {w : Panic} (h : Outs f x) : Outs f (doIfEq c x w) := by
  cases c
  · intro a ha; cases ha
  · exact h

theorem bind_outs {α : Type} {x : R α} {g : α → R FpElt} {Q : α → Prop} (hx : ∀ a, x = R.ok a → Q a) (hg : ∀ a, Q a → Outs f (g a)) :
    Outs f (x >>= g) := fun b hb => by
  rw [R.bind_eq_ok] at hb
  obtain ⟨a, ha, hb⟩ := hb
  exact hg a (hx a ha) b hb

theorem powInt_outs {a : FpElt} (h : In f a) (e : ℤ) : Outs f (a.powInt e) := by
  simp only [FpElt.powInt]
  refine bind_outs (Q := fun _ => True) (fun _ _ => trivial) fun _ _ => ?_
  refine bind_outs (Q := fun _ => True) (fun _ _ => trivial) fun _ _ => ?_
  simp only [FpElt.powNat]
  refine bind_outs (Q := fun _ => True) (fun _ _ => trivial) fun _ _ => ?_
  exact red_outs h _

theorem add_outs {x y : R FpElt} (hx : Outs f x) : Outs f (x +! y) :=
  bind_outs hx fun _ ha => bind_outs (Q := fun _ => True) (fun _ _ => trivial) fun _ _ => doIfEq_outs (red_outs ha _)
theorem mul_outs {x y : R FpElt} (hx : Outs f x) : Outs f (x *! y) :=
  bind_outs hx fun _ ha => bind_outs (Q := fun _ => True) (fun _ _ => trivial) fun _ _ => doIfEq_outs (red_outs ha _)
theorem neg_outs {x : R FpElt} (hx : Outs f x) : Outs f (-! x) := bind_outs hx fun _ ha => red_outs ha _
theorem sqr_outs {x : R FpElt} (hx : Outs f x) : Outs f (x ^²) := bind_outs hx fun _ ha => doIfEq_outs (doIfEq_outs (red_outs ha _))
theorem inv_outs {a : FpElt} (h : In f a) : Outs f (FpElt.u32Div 1 a) := powInt_outs h _
theorem finv_outs {x : R FpElt} (hx : Outs f x) : Outs f (R.finv x) := bind_outs hx fun _ ha => inv_outs ha
theorem div_outs {x y : R FpElt} (hx : Outs f x) : Outs f (x /! y) :=
  bind_outs hx fun _ ha => bind_outs (Q := fun _ => True) (fun _ _ => trivial) fun _ _ =>
    bind_outs (Q := fun _ => True) (fun _ _ => trivial) fun _ _ => doIfEq_outs (red_outs ha _)

theorem sqrt_outs {a : FpElt} (h : In f a) : Outs f a.sqrt := by
  refine bind_outs (Q := fun _ => True) (fun _ _ => trivial) fun pre _ => ?_
  cases pre with
  | p3mod4 exp => exact powInt_outs h _
  | p5mod8 exp s =>
    simp only [FpElt.sqrtWith]
    refine bind_outs (powInt_outs h _) fun t ht => bind_outs (Q := fun _ => True) (fun _ _ => trivial) fun _ _ => ?_
    refine bind_outs (mul_outs (outs_ok ht)) fun t1 ht1 => ?_
    exact outs_ok (cmov_in ht1 ht _)
  | p9mod16 => intro b hb; cases hb
  | p1mod16 => intro b hb; cases hb

theorem sswu_new {e : Weierstrass.Curve} (he : WIn f e) {z : FpElt} (hz : In f z) {m : Weierstrass.SSWU} (h : Weierstrass.SSWU.new e z = R.ok m) :
    m.e = e ∧ SSWUIn f m := by
  simp only [Weierstrass.SSWU.new, R.bind_eq_ok] at h
  obtain ⟨b, -, h⟩ := h
  split at h
  · cases h
  · simp only [R.bind_eq_ok] at h
    obtain ⟨c1, h1, c2, h2, h⟩ := h
    cases h
    exact ⟨rfl, he, mul_outs (neg_outs (outs_ok he.b)) _ h1, neg_outs (finv_outs (outs_ok hz)) _ h2, hz⟩

theorem svdw_new {e : Weierstrass.Curve} (he : WIn f e) {z : FpElt} (hz : In f z) {m : Weierstrass.SVDW} (h : Weierstrass.SVDW.new e z = R.ok m) :
    m.e = e ∧ SVDWIn f m := by
  simp only [Weierstrass.SVDW.new, R.bind_eq_ok] at h
  obtain ⟨b, -, h⟩ := h
  split at h
  · cases h
  · simp only [R.bind_eq_ok] at h
    obtain ⟨f2, h2, f3, h3, f4, h4, gz, hgz, c1, h1, c2, hc2, t0, ht0, g, hg, c3, hc3, h⟩ := h
    have iz : Outs f (Weierstrass.SVDW.gx e z) := add_outs (mul_outs (outs_ok hz))
    have igz : In f gz := neg_outs iz _ hgz
    have i4 : In f f4 := he.fld ▸ elt_outs (f := e.f) 4 _ h4
    have ig : In f g := mul_outs (outs_ok igz) _ hg
    have i3 : In f c3 := sqrt_outs ig _ hc3
    have i1 := neg_outs (outs_ok igz) _ h1
    have i2 := mul_outs (neg_outs (outs_ok hz)) _ hc2
    split at h
    · simp only [R.bind_eq_ok] at h
      obtain ⟨c3', hc3', c4, hc4, h⟩ := h
      cases h
      exact ⟨rfl, he, i1, i2, neg_outs (outs_ok i3) _ hc3', mul_outs (mul_outs (outs_ok i4)) _ hc4, hz⟩
    · simp only [R.bind_eq_ok] at h
      obtain ⟨c4, hc4, h⟩ := h
      cases h
      exact ⟨rfl, he, i1, i2, i3, mul_outs (mul_outs (outs_ok i4)) _ hc4, hz⟩

theorem ell2_new {e : Montgomery.Curve} (he : MIn f e) {z : FpElt} (hz : In f z) {m : Montgomery.Ell2} (h : Montgomery.Ell2.new e z = R.ok m) :
    m.e = e ∧ Ell2In f m := by
  simp only [Montgomery.Ell2.new] at h
  split at h
  · cases h
  · simp only [R.bind_eq_ok] at h
    obtain ⟨i, hi, ca, hca, cb, hcb, h⟩ := h
    cases h
    have ii : In f i := finv_outs (outs_ok he.b) _ hi
    exact ⟨rfl, he, div_outs (outs_ok he.a) _ hca, sqr_outs (outs_ok ii) _ hcb, hz⟩

end Redox.FT
