import Verif.Props.Accepted
import Verif.Props.Commit
import Verif.Props.Subgroup

/-!
# C119: accepted strings that stand for points of small order, and for multiples of the generator

The programs below are the two tests a user of the library can write.
-/

set_option linter.unusedSectionVars false

namespace Redox

open Spec

namespace Props

/-- The test for small order: the cofactor times the point is the identity (Weierstrass). -/
def wSmall (prof : Profile) (e : Weierstrass.Curve) (P : Weierstrass.Point) : R Bool := do
  (← P.mul prof (← e.newScalar e.getCofactor)).eq (← e.identity)

/-- The test for small order (Montgomery). -/
def mSmall (prof : Profile) (e : Montgomery.Curve) (P : Montgomery.Point) : R Bool := do
  (← P.mul prof (← e.newScalar e.getCofactor)).eq (← e.identity)

/-- The test for small order (Edwards). -/
def eSmall (prof : Profile) (e : Edwards.Curve) (P : Edwards.Point) : R Bool := do
  (← P.mul prof (← e.newScalar e.getCofactor)).eq (← e.identity)

/-- The test of C99 for multiples of the generator (Montgomery). -/
def mMember (prof : Profile) (e : Montgomery.Curve) (P : Montgomery.Point) : R Bool := do
  (← P.mul prof (← e.newScalar (-1))).eq (← P.neg)

/-- The test of C99 for multiples of the generator (Edwards). -/
def eMember (prof : Profile) (e : Edwards.Curve) (P : Edwards.Point) : R Bool := do
  (← P.mul prof (← e.newScalar (-1))).eq (← P.neg)

section group
variable {G : Type} [AddCommGroup G] [Finite G]

theorem inv_mod {r h : ℕ} (hr : r.Prime) (h0 : h ≠ 0) (hh : h < r) : ∃ w : ℤ, (r : ℤ) ∣ w * h - 1 := by
  have hc : IsCoprime (h : ℤ) (r : ℤ) := by
    rw [Nat.isCoprime_iff_coprime]
    exact (Nat.coprime_of_lt_prime (by omega) hh hr).symm
  obtain ⟨a, b, hab⟩ := hc
  exact ⟨a, -b, by linear_combination hab⟩

theorem card_small {r h : ℕ} {g : G} (hr : r.Prime) (ho : addOrderOf g = r) (h0 : h ≠ 0) (hh : h < r) (hcard : Nat.card G = r * h) :
    Nat.card {A : G // h • A = 0} = h := by
  have hc : ¬ r * r ∣ Nat.card G := by
    rw [hcard]
    intro hd
    have := Nat.le_of_dvd (by omega) (Nat.dvd_of_mul_dvd_mul_left hr.pos hd)
    omega
  obtain ⟨w, hw⟩ := inv_mod hr h0 hh
  have hg : r • g = 0 := by rw [← ho]; exact addOrderOf_nsmul_eq_zero g
  have hrange : (nsmulAddMonoidHom h : G →+ G).range = AddSubgroup.zmultiples g := by
    refine le_antisymm ?_ ?_
    · rintro _ ⟨A, rfl⟩
      obtain ⟨-, n, hn⟩ := Cof.cleared hr ho (fun B => by rw [← hcard]; exact card_nsmul_eq_zero') hc A
      exact ⟨n, hn.symm⟩
    · rw [AddSubgroup.zmultiples_le]
      refine ⟨w • g, ?_⟩
      obtain ⟨d, hd⟩ := hw
      show h • (w • g) = g
      rw [← natCast_zsmul, ← mul_smul, show (h : ℤ) * w = r * d + 1 by linear_combination hd, add_smul, mul_comm, mul_smul, natCast_zsmul,
        hg, smul_zero, zero_add, one_smul]
  have h1 := AddSubgroup.card_mul_index (nsmulAddMonoidHom h : G →+ G).ker
  rw [AddSubgroup.index_ker, hrange, Nat.card_zmultiples, ho, hcard, mul_comm r h] at h1
  exact Nat.eq_of_mul_eq_mul_right hr.pos h1

theorem card_member {r : ℕ} {g : G} (ho : addOrderOf g = r) : Nat.card {A : G // ∃ n : ℤ, A = n • g} = r := by
  rw [← ho, ← Nat.card_zmultiples]
  exact Nat.card_congr (Equiv.subtypeEquivRight fun A => ⟨fun ⟨n, h⟩ => ⟨n, h.symm⟩, fun ⟨n, h⟩ => ⟨n, h.symm⟩⟩)

/-- A point that is not small becomes a nonzero multiple of the generator. -/
theorem not_small {r h : ℕ} {g : G} (hr : r.Prime) (ho : addOrderOf g = r) (h0 : h ≠ 0) (hh : h < r) (hcard : Nat.card G = r * h)
    (A : G) (hA : h • A ≠ 0) : ∃ n : ℤ, ¬ (r : ℤ) ∣ n ∧ h • A = n • g := by
  have hc : ¬ r * r ∣ Nat.card G := by
    rw [hcard]
    intro hd
    have := Nat.le_of_dvd (by omega) (Nat.dvd_of_mul_dvd_mul_left hr.pos hd)
    omega
  obtain ⟨-, n, hn⟩ := Cof.cleared hr ho (fun B => by rw [← hcard]; exact card_nsmul_eq_zero') hc A
  refine ⟨n, fun hd => hA ?_, hn⟩
  rw [hn]
  exact (addOrderOf_dvd_iff_zsmul_eq_zero).1 (by rwa [ho])

theorem card_nonzero_sub (S : G → Prop) (h : S 0) : Nat.card {A : G // A ≠ 0 ∧ S A} + 1 = Nat.card {A : G // S A} := by
  have h1 := Set.ncard_sdiff_singleton_add_one (s := {A : G | S A}) (a := 0) h
  rw [← Nat.card_coe_set_eq, ← Nat.card_coe_set_eq] at h1
  refine Eq.trans ?_ h1
  congr 1
  exact Nat.card_congr (Equiv.subtypeEquivRight fun A => by simp [and_comm])

end group

end Props

namespace Props.Ed

open Edwards ELink Edw

section
variable (p : ℕ) [Fact p.Prime] (e : Curve)

theorem e_count [he : ECurve p e] (hs : p % 4 = 3 ∨ p % 8 = 5) (S : eGroup p e → Prop) (T : Point → Prop)
    (hT : ∀ P A, EDenotes p e P A → (T P ↔ S A)) :
    Nat.card {buf : List Byte // ∃ P, e.decode buf = R.ok (.ok P) ∧ T P} = Nat.card {A : eGroup p e // S A} := by
  have ex : ∀ A : {A : eGroup p e // S A}, ∃ bs, IsRfc8032 A.1 bs := fun A => by
    obtain ⟨bs, Q, -, h2, h3, -⟩ := C39_roundtrip p e hs _ A.1 (denotes_affine A.1) true
    exact ⟨bs, h2, h3⟩
  choose f hf using ex
  have hd : ∀ A, ∃ P, e.decode (f A) = R.ok (.ok P) ∧ EDenotes p e P A.1 := fun A => (C105_edwards_decode p e hs (f A)).2 A.1 (hf A)
  symm
  refine Nat.card_congr (Equiv.ofBijective (fun A => ⟨f A, (hd A).imp fun P h => ⟨h.1, (hT P A.1 h.2).2 A.2⟩⟩) ⟨?_, ?_⟩)
  · intro A B hAB
    have hAB : f A = f B := congrArg Subtype.val hAB
    obtain ⟨P, hP, dP⟩ := hd A
    obtain ⟨Q, hQ, dQ⟩ := hd B
    rw [hAB, hQ, R.ok.injEq, Except.ok.injEq] at hP
    subst hP
    have h1 := C36_eq p e Q Q A.1 B.1 dP dQ
    rw [C36_eq p e Q Q A.1 A.1 dP dP, R.ok.injEq, decide_eq_true rfl] at h1
    exact Subtype.ext (of_decide_eq_true h1.symm)
  · rintro ⟨buf, P, hP, hS⟩
    obtain ⟨A, hA, dA⟩ := (C105_edwards_decode p e hs buf).1 P hP
    exact ⟨⟨A, (hT P A dA).1 hS⟩, Subtype.ext (rfc_unique p e (hf _) hA)⟩

/-- C119, Edwards: on a valid curve with `get_order() * get_cofactor()` points and a cofactor below the order, the test for small order gives a verdict on every
accepted string. It is true for exactly `get_cofactor()` strings; if it is false, the cofactor times the point is a multiple of the generator by an integer that is not
a multiple of the order. The test of C99 is true for exactly `get_order()` strings. -/
theorem _root_.Redox.Props.C119_edwards (h : EValid p e) [ECurve p e] (hs : p % 4 = 3 ∨ p % 8 = 5)
    (hcard : (Nat.card (eGroup p e) : ℤ) = e.getOrder * e.getCofactor) (h0 : 0 < e.getCofactor) (hh : e.getCofactor < e.getOrder) (prof : Profile) :
    (∀ buf P, e.decode buf = R.ok (.ok P) → eSmall prof e P = R.ok true ∨ eSmall prof e P = R.ok false ∧ ∃ n : ℤ, ¬ (e.getOrder : ℤ) ∣ n ∧
      (do (← P.mul prof (← e.newScalar e.getCofactor)).eq (← (← e.getGenerator).mul prof (← e.newScalar n))) = R.ok true) ∧
    (Nat.card {buf : List Byte // ∃ P, e.decode buf = R.ok (.ok P) ∧ eSmall prof e P = R.ok true} : ℤ) = e.getCofactor ∧
    Nat.card {buf : List Byte // ∃ P, e.decode buf = R.ok (.ok P) ∧ eMember prof e P = R.ok true} = e.getOrder := by
  have : Finite (eGroup p e) := Cof.finiteE (a := val p e.a) (d := val p e.d) h.curve.params.odd
  have hrp := h.order_prime
  have hr1 := hrp.one_le
  obtain ⟨G, g, hG, hg, ho⟩ := h.generator
  simp only [Curve.getCofactor, Curve.getOrder] at hcard h0 hh ho hrp hr1 ⊢
  have hcard : Nat.card (eGroup p e) = e.r * e.h := by exact_mod_cast hcard
  have h0 : e.h ≠ 0 := by omega
  have hh : e.h < e.r := by omega
  obtain ⟨I, hI, dI⟩ := (C36_group_law p e G G g g hg hg).2.2.2
  have hmul : ∀ P A, EDenotes p e P A → ∃ S, P.mul prof ⟨(e.h : ℤ), e.r⟩ = R.ok S ∧ EDenotes p e S (e.h • A) := by
    intro P A hP
    have := C37_mul_partial p e h.order_bits prof P A hP ⟨(e.h : ℤ), e.r⟩ ⟨rfl, by simp, by simpa using hh⟩ (Or.inl (by simpa using h0))
    rwa [natCast_zsmul] at this
  have hsc : (e.h : ℤ) % e.r = e.h := Int.emod_eq_of_lt (by omega) (by omega)
  have small : ∀ P A, EDenotes p e P A → eSmall prof e P = R.ok (decide (e.h • A = 0)) := by
    intro P A hP
    obtain ⟨S, hS, dS⟩ := hmul P A hP
    simp only [eSmall, Curve.newScalar, Curve.getCofactor, scalar_new_eq e.r hr1, R.ok_bind, hsc, hS, hI, C36_eq p e _ _ _ _ dS dI]
  refine ⟨fun buf P hP => ?_, ?_, ?_⟩
  · obtain ⟨A, -, dA⟩ := (C105_edwards_decode p e hs buf).1 P hP
    rw [small P A dA]
    by_cases hA : e.h • A = 0
    · exact Or.inl (by rw [decide_eq_true hA])
    · obtain ⟨n, hn, hAn⟩ := not_small hrp ho h0 hh hcard A hA
      refine Or.inr ⟨by rw [decide_eq_false hA], n, hn, ?_⟩
      obtain ⟨S, hS, dS⟩ := hmul P A dA
      obtain ⟨s, U, hs', hU, dU⟩ := Commit.e_mul p e h prof hg (by rw [← ho]; exact addOrderOf_nsmul_eq_zero g) n (Or.inl hn)
      have hs1 : e.newScalar e.h = R.ok ⟨e.h, e.r⟩ := by rw [Curve.newScalar, scalar_new_eq e.r hr1, hsc]
      simp only [hs', hs1, hG, R.ok_bind, hS, hU, C36_eq p e _ _ _ _ dS dU]
      rw [decide_eq_true hAn]
  · rw [e_count p e hs (fun A => e.h • A = 0) _ (fun P A hP => by rw [small P A hP]; simp), card_small hrp ho h0 hh hcard]
  · rw [e_count p e hs (fun A => ∃ n : ℤ, A = n • g) _ (fun P A hP => ?_), card_member ho]
    obtain ⟨b, hb, hi⟩ := C99_edwards p e h prof P A hP
    show eMember prof e P = R.ok true ↔ _
    rw [eMember, hb, R.ok.injEq, hi]
    exact Subgroup.killed_iff hrp ho (by rw [hcard]; exact Subgroup.sq_not_dvd hr1 h0 hh) A

end

/-- C119, the named Edwards curves. -/
theorem _root_.Redox.Props.C119_named_edwards : ∀ t ∈ Inst.edwardsList, ∃ e : Curve, t.1 = R.ok e ∧ ∀ prof : Profile,
    (∀ buf P, e.decode buf = R.ok (.ok P) → eSmall prof e P = R.ok true ∨ eSmall prof e P = R.ok false ∧ ∃ n : ℤ, ¬ (e.getOrder : ℤ) ∣ n ∧
      (do (← P.mul prof (← e.newScalar e.getCofactor)).eq (← (← e.getGenerator).mul prof (← e.newScalar n))) = R.ok true) ∧
    (Nat.card {buf : List Byte // ∃ P, e.decode buf = R.ok (.ok P) ∧ eSmall prof e P = R.ok true} : ℤ) = e.getCofactor ∧
    Nat.card {buf : List Byte // ∃ P, e.decode buf = R.ok (.ok P) ∧ eMember prof e P = R.ok true} = e.getOrder := by
  have : ECurve Inst.curve25519_p Inst.edwards25519 := Inst.edwards25519_valid.curve
  have : ECurve Inst.curve448_p Inst.edwards448 := Inst.edwards448_valid.curve
  rw [Inst.edwardsList, Inst.c25519_p_eq, Inst.c448_p_eq]
  simp only [List.forall_mem_cons]
  exact ⟨⟨_, Inst.edwards25519_eq, C119_edwards Inst.curve25519_p _ Inst.edwards25519_valid (by decide +kernel) (by
      rw [Inst.card_edwards25519, Curve.getOrder, Curve.getCofactor]; push_cast; rfl) (by decide +kernel) (by decide +kernel)⟩,
    ⟨_, Inst.edwards448_eq, C119_edwards Inst.curve448_p _ Inst.edwards448_valid (by decide +kernel) (by
      rw [Inst.card_edwards448, Curve.getOrder, Curve.getCofactor]; push_cast; rfl) (by decide +kernel) (by decide +kernel)⟩, by simp⟩

end Props.Ed

namespace Props.Mo

open Montgomery MLink Mont

section
variable (p : ℕ) [Fact p.Prime] (e : Curve)

theorem m_count (he : MCurve p e) (hb : val p e.b = 1) (hs : p % 4 = 3 ∨ p % 8 = 5) (S : (mGroup p e).Point → Prop) (T : Point → Prop)
    (hT : ∀ P A, MDenotes p e P A → (T P ↔ S A)) (R0 : ZMod p → Prop) (hR : ∀ x hn, S (.some x 0 hn) ↔ R0 x) :
    Nat.card {buf : List Byte // buf.length = e.f.sizeBytes + 1 ∧ ∃ P, e.decode buf = R.ok (.ok P) ∧ T P} =
      Nat.card {A : (mGroup p e).Point // A ≠ 0 ∧ S A} + Nat.card {x : ZMod p // x ^ 3 + val p e.a * x ^ 2 + x = 0 ∧ R0 x} ∧
    Nat.card {buf : List Byte // buf.length = 2 * e.f.sizeBytes + 1 ∧ ∃ P, e.decode buf = R.ok (.ok P) ∧ T P} =
      Nat.card {A : (mGroup p e).Point // A ≠ 0 ∧ S A} := by
  have h1 := one_le_sizeBytes he
  have : Finite (mGroup p e).Point := Inst.m_finite he
  have ns : ∀ x : ZMod p, x ^ 3 + val p e.a * x ^ 2 + x = 0 → (mGroup p e).Nonsingular x 0 := by
    intro x hx
    obtain ⟨A, hA⟩ := exists_rep (a := val p e.a) (x := x) (y := 0) (z := 1) (by have := MLink.two_lt_of he; omega) (ea_ne he)
      (by linear_combination -hx) (Or.inr one_ne_zero)
    rcases A with _ | ⟨u, v, hn⟩
    · exact absurd hA.2.2 one_ne_zero
    · obtain ⟨-, hx, hy⟩ := id hA
      rw [mul_one] at hx hy
      subst hx
      rw [hy]
      exact hn
  have two : ∀ {x y : ZMod p} {xs : List Byte}, y = 0 → ¬ IsSec1 e.f.sizeBytes x y true (3 :: xs) := by
    rintro x y xs rfl ⟨xs', ys', -, -, -, -, h⟩
    simp at h
  have ex : ∀ (c : Bool) (A : {A : (mGroup p e).Point // A ≠ 0 ∧ S A}), ∃ bs, ∃ x y, ∃ hn : (mGroup p e).Nonsingular x y,
      A.1 = .some x y hn ∧ IsSec1 e.f.sizeBytes x y c bs := by
    rintro c ⟨_ | ⟨x, y, hn⟩, hA⟩
    · exact absurd rfl hA.1
    · obtain ⟨bs, hbs⟩ := sec1_exists x y c
      exact ⟨bs, x, y, hn, rfl, by rwa [size_eq he]⟩
  choose f x y hn hA hf using ex
  have hd : ∀ c A, ∃ P, e.decode (f c A) = R.ok (.ok P) ∧ MDenotes p e P A.1 := fun c A => by
    rw [hA c A]
    exact (C105_montgomery_decode p e he hb hs (f c A)).2 _ _ (hn c A) (Or.inl ⟨c, hf c A⟩)
  have finj : ∀ c, Function.Injective (f c) := by
    intro c A B hAB
    obtain ⟨P, hP, dP⟩ := hd c A
    obtain ⟨Q, hQ, dQ⟩ := hd c B
    rw [hAB, hQ, R.ok.injEq, Except.ok.injEq] at hP
    subst hP
    exact Subtype.ext (mDenotes_unique p e dP dQ)
  have fsurj : ∀ c {x' y' : ZMod p} (hn' : (mGroup p e).Nonsingular x' y') {bs : List Byte}, S (.some x' y' hn') → IsSec1 e.f.sizeBytes x' y' c bs → ∃ A, f c A = bs := by
    intro c x' y' hn' bs hS hsec
    have hne : (.some x' y' hn' : (mGroup p e).Point) ≠ 0 := by simp
    refine ⟨⟨.some x' y' hn', hne, hS⟩, ?_⟩
    have h3 := hA c ⟨.some x' y' hn', hne, hS⟩
    have h4 := hf c ⟨.some x' y' hn', hne, hS⟩
    simp only [WeierstrassCurve.Affine.Point.some.injEq] at h3
    rw [← h3.1, ← h3.2] at h4
    exact h4.unique hsec
  have len : ∀ v : ZMod p, (Big.fixedBE ((Big.bits p + 7) / 8) v.val).length = e.f.sizeBytes := fun v => fixedBE_len he v
  let g : {x : ZMod p // x ^ 3 + val p e.a * x ^ 2 + x = 0 ∧ R0 x} → List Byte := fun x => 3 :: Big.fixedBE ((Big.bits p + 7) / 8) x.1.val
  have hg : ∀ x, ReadsAs e.f.sizeBytes x.1 0 (g x) := fun x =>
    Or.inr ⟨rfl, _, len x.1, by rw [beValue_eq, fromBE_fixed0], rfl⟩
  have hgd : ∀ x, ∃ P, e.decode (g x) = R.ok (.ok P) ∧ MDenotes p e P (.some x.1 0 (ns x.1 x.2.1)) := fun x =>
    (C105_montgomery_decode p e he hb hs (g x)).2 _ _ (ns x.1 x.2.1) (hg x)
  refine ⟨?_, ?_⟩
  · rw [← Nat.card_sum]
    symm
    refine Nat.card_congr (Equiv.ofBijective (Sum.elim (fun A => ⟨f true A, sec1_length (hf true A), (hd true A).imp fun P h => ⟨h.1, (hT P _ h.2).2 A.2.2⟩⟩)
      (fun x => ⟨g x, by simp [g, len x.1], (hgd x).imp fun P h => ⟨h.1, (hT P _ h.2).2 ((hR _ _).2 x.2.2)⟩⟩)) ⟨?_, ?_⟩)
    · have mix : ∀ A x, f true A ≠ g x := by
        intro A x' hAx
        obtain ⟨P, hP, dP⟩ := hd true A
        obtain ⟨Q, hQ, dQ⟩ := hgd x'
        rw [hAx, hQ, R.ok.injEq, Except.ok.injEq] at hP
        subst hP
        have h3 := (hA true A).symm.trans (mDenotes_unique p e dP dQ)
        simp only [WeierstrassCurve.Affine.Point.some.injEq] at h3
        have h4 := hf true A
        rw [hAx] at h4
        exact two h3.2 h4
      rintro (A | x) (B | x') h
      · exact congrArg _ (finj true (congrArg Subtype.val h))
      · exact absurd (congrArg Subtype.val h) (mix A x')
      · exact absurd (congrArg Subtype.val h).symm (mix B x)
      · have h : g x = g x' := congrArg Subtype.val h
        have h' := congrArg Big.fromBytesBE (List.cons.inj h).2
        rw [fromBE_fixed0, fromBE_fixed0] at h'
        exact congrArg _ (Subtype.ext (ZMod.val_injective p h'))
    · rintro ⟨buf, hl, P, hP, hTP⟩
      obtain ⟨x', y', hn', hr, dP⟩ := (C105_montgomery_decode p e he hb hs buf).1 P hP
      have hS := (hT P _ dP).1 hTP
      rcases hr with ⟨c, hsec⟩ | ⟨rfl, xs, lx, vx, rfl⟩
      · have hc : c = true := by
          have := sec1_length hsec
          rw [hl] at this
          cases c <;> simp at this ⊢
          omega
        subst hc
        obtain ⟨A, hA⟩ := fsurj true hn' hS hsec
        exact ⟨Sum.inl A, Subtype.ext hA⟩
      · have hx0 : x' ^ 3 + val p e.a * x' ^ 2 + x' = 0 := by
          have := ((nonsingular_iff _ x' 0).1 hn').1
          linear_combination -this
        refine ⟨Sum.inr ⟨x', hx0, (hR _ _).1 hS⟩, Subtype.ext ?_⟩
        show 3 :: _ = 3 :: xs
        congr 1
        refine Big.fromBytesBE_inj ((len x').trans lx.symm) ?_
        rw [fromBE_fixed0, ← vx, beValue_eq]
  · symm
    refine Nat.card_congr (Equiv.ofBijective (fun A => ⟨f false A, sec1_length (hf false A), (hd false A).imp fun P h => ⟨h.1, (hT P _ h.2).2 A.2.2⟩⟩) ⟨?_, ?_⟩)
    · intro A B hAB
      exact finj false (congrArg Subtype.val hAB)
    · rintro ⟨buf, hl, P, hP, hTP⟩
      obtain ⟨x', y', hn', hr, dP⟩ := (C105_montgomery_decode p e he hb hs buf).1 P hP
      have hS := (hT P _ dP).1 hTP
      rcases hr with ⟨c, hsec⟩ | ⟨rfl, xs, lx, vx, rfl⟩
      · have hc : c = false := by
          have := sec1_length hsec
          rw [hl] at this
          cases c <;> simp at this ⊢
          omega
        subst hc
        obtain ⟨A, hA⟩ := fsurj false hn' hS hsec
        exact ⟨A, Subtype.ext hA⟩
      · simp [lx] at hl
        omega

theorem two_zero {x : ZMod p} (hn : (mGroup p e).Nonsingular x 0) : 2 • (.some x 0 hn : (mGroup p e).Point) = 0 := by
  rw [two_nsmul]
  exact WeierstrassCurve.Affine.Point.add_self_of_Y_eq (by simp [WeierstrassCurve.Affine.negY])

/-- C119, Montgomery: on a valid curve with `B = 1`, `get_order() * get_cofactor()` points, an even cofactor below the order and one point with `y = 0`, the test for
small order gives a verdict on every accepted string. It is true for exactly `get_cofactor()` strings of the short form and one fewer of the long form; if it is false,
the cofactor times the point is a multiple of the generator by an integer that is not a multiple of the order. The test of C99 is true for exactly `get_order() - 1`
strings of either form. -/
theorem _root_.Redox.Props.C119_montgomery (h : MValid p e) (hs : p % 4 = 3 ∨ p % 8 = 5) (hsq : ¬ IsSquare (val p e.a ^ 2 - 4))
    (hcard : (Nat.card (mGroup p e).Point : ℤ) = e.getOrder * e.getCofactor) (h0 : 0 < e.getCofactor) (h2 : 2 ∣ e.getCofactor)
    (hh : e.getCofactor < e.getOrder) (prof : Profile) :
    (∀ buf P, e.decode buf = R.ok (.ok P) → mSmall prof e P = R.ok true ∨ mSmall prof e P = R.ok false ∧ ∃ n : ℤ, ¬ (e.getOrder : ℤ) ∣ n ∧
      (do (← P.mul prof (← e.newScalar e.getCofactor)).eq (← (← e.getGenerator).mul prof (← e.newScalar n))) = R.ok true) ∧
    (Nat.card {buf : List Byte // buf.length = e.f.sizeBytes + 1 ∧ ∃ P, e.decode buf = R.ok (.ok P) ∧ mSmall prof e P = R.ok true} : ℤ) =
      e.getCofactor ∧
    (Nat.card {buf : List Byte // buf.length = 2 * e.f.sizeBytes + 1 ∧ ∃ P, e.decode buf = R.ok (.ok P) ∧ mSmall prof e P = R.ok true} : ℤ) + 1 =
      e.getCofactor ∧
    Nat.card {buf : List Byte // buf.length = e.f.sizeBytes + 1 ∧ ∃ P, e.decode buf = R.ok (.ok P) ∧ mMember prof e P = R.ok true} + 1 =
      e.getOrder ∧
    Nat.card {buf : List Byte // buf.length = 2 * e.f.sizeBytes + 1 ∧ ∃ P, e.decode buf = R.ok (.ok P) ∧ mMember prof e P = R.ok true} + 1 =
      e.getOrder := by
  have : Finite (mGroup p e).Point := Inst.m_finite h.curve
  have hrp := h.order_prime
  have hr1 := hrp.one_le
  obtain ⟨G, g, hG, hg, ho⟩ := h.generator
  simp only [Curve.getCofactor, Curve.getOrder] at hcard h0 h2 hh ho hrp hr1 ⊢
  have hcard : Nat.card (mGroup p e).Point = e.r * e.h := by exact_mod_cast hcard
  have h2 : 2 ∣ e.h := by exact_mod_cast h2
  have h0 : e.h ≠ 0 := by omega
  have hh : e.h < e.r := by omega
  obtain ⟨I, hI, dI⟩ := identity_denotes h.curve
  have hmul : ∀ P A, MDenotes p e P A → ∃ S, P.mul prof ⟨(e.h : ℤ), e.r⟩ = R.ok S ∧ MDenotes p e S (e.h • A) := by
    intro P A hP
    have := C33_mul_partial p e h.curve h.b_one h.complete h.order_bits prof P A hP ⟨(e.h : ℤ), e.r⟩ ⟨rfl, by simp, by simpa using hh⟩
      (Or.inl (by simpa using h0))
    rwa [natCast_zsmul] at this
  have hsc : (e.h : ℤ) % e.r = e.h := Int.emod_eq_of_lt (by omega) (by omega)
  have small : ∀ P A, MDenotes p e P A → mSmall prof e P = R.ok (decide (e.h • A = 0)) := by
    intro P A hP
    obtain ⟨S, hS, dS⟩ := hmul P A hP
    simp only [mSmall, Curve.newScalar, Curve.getCofactor, scalar_new_eq e.r hr1, R.ok_bind, hsc, hS, hI, (C32_eq p e _ _ _ _ dS dI).1]
  have member : ∀ P A, MDenotes p e P A → (mMember prof e P = R.ok true ↔ ∃ n : ℤ, A = n • g) := by
    intro P A hP
    obtain ⟨b, hb, hi⟩ := C99_montgomery p e h prof P A hP
    rw [mMember, hb, R.ok.injEq, hi]
    exact Subgroup.killed_iff hrp ho (by rw [hcard]; exact Subgroup.sq_not_dvd hr1 h0 hh) A
  have cs := card_small hrp ho h0 hh hcard
  rw [← card_nonzero_sub (fun A : (mGroup p e).Point => e.h • A = 0) (nsmul_zero _)] at cs
  have cm := card_member ho
  rw [← card_nonzero_sub (fun A : (mGroup p e).Point => ∃ n : ℤ, A = n • g) ⟨0, (zero_zsmul g).symm⟩] at cm
  obtain ⟨s1, s2⟩ := m_count p e h.curve h.b_one hs (fun A => e.h • A = 0) (fun P => mSmall prof e P = R.ok true)
    (fun P A hP => by rw [small P A hP]; simp) (fun _ => True) (fun x hn => by
      obtain ⟨c, hc⟩ := h2
      simp only [iff_true]
      rw [hc, mul_comm, mul_nsmul', two_zero, nsmul_zero])
  obtain ⟨t1, t2⟩ := m_count p e h.curve h.b_one hs (fun A => ∃ n : ℤ, A = n • g) (fun P => mMember prof e P = R.ok true) member
    (fun _ => False) (fun x hn => by
      simp only [iff_false]
      rintro ⟨n, hn'⟩
      have hk : e.r • (.some x 0 hn : (mGroup p e).Point) = 0 := by
        rw [hn', ← natCast_zsmul, zsmul_comm, natCast_zsmul, ← ho, addOrderOf_nsmul_eq_zero, zsmul_zero]
      have hodd : e.r % 2 = 1 := by
        rcases hrp.eq_two_or_odd with h' | h'
        · omega
        · exact h'
      have := two_zero p e hn
      rw [show e.r = e.r / 2 * 2 + 1 by omega, add_nsmul, mul_nsmul', this, nsmul_zero, zero_add, one_nsmul] at hk
      simp at hk)
  have c1 : Nat.card {x : ZMod p // x ^ 3 + val p e.a * x ^ 2 + x = 0 ∧ True} = 1 := by
    simpa using one_root p hsq
  have c0 : Nat.card {x : ZMod p // x ^ 3 + val p e.a * x ^ 2 + x = 0 ∧ False} = 0 := by simp
  refine ⟨fun buf P hP => ?_, ?_, ?_, ?_, ?_⟩
  · obtain ⟨x, y, hn, -, dA⟩ := (C105_montgomery_decode p e h.curve h.b_one hs buf).1 P hP
    rw [small P _ dA]
    by_cases hA : e.h • (.some x y hn : (mGroup p e).Point) = 0
    · exact Or.inl (by rw [decide_eq_true hA])
    · obtain ⟨n, hn', hAn⟩ := not_small hrp ho h0 hh hcard _ hA
      refine Or.inr ⟨by rw [decide_eq_false hA], n, hn', ?_⟩
      obtain ⟨S, hS, dS⟩ := hmul P _ dA
      obtain ⟨s, U, hs', hU, dU⟩ := Commit.m_mul p e h prof hg (by rw [← ho]; exact addOrderOf_nsmul_eq_zero g) n (Or.inl hn')
      have hs1 : e.newScalar e.h = R.ok ⟨e.h, e.r⟩ := by rw [Curve.newScalar, scalar_new_eq e.r hr1, hsc]
      simp only [hs', hs1, hG, R.ok_bind, hS, hU, (C32_eq p e _ _ _ _ dS dU).1]
      rw [decide_eq_true hAn]
  · rw [s1, c1]
    exact_mod_cast cs
  · rw [s2]
    exact_mod_cast cs
  · rw [t1, c0, add_zero]
    exact cm
  · rw [t2]
    exact cm

/-- C119, the named Montgomery curves. -/
theorem _root_.Redox.Props.C119_named_montgomery : ∀ t ∈ Inst.montgomeryList, ∃ e : Curve, t.1 = R.ok e ∧ ∀ prof : Profile,
    (∀ buf P, e.decode buf = R.ok (.ok P) → mSmall prof e P = R.ok true ∨ mSmall prof e P = R.ok false ∧ ∃ n : ℤ, ¬ (e.getOrder : ℤ) ∣ n ∧
      (do (← P.mul prof (← e.newScalar e.getCofactor)).eq (← (← e.getGenerator).mul prof (← e.newScalar n))) = R.ok true) ∧
    (Nat.card {buf : List Byte // buf.length = e.f.sizeBytes + 1 ∧ ∃ P, e.decode buf = R.ok (.ok P) ∧ mSmall prof e P = R.ok true} : ℤ) =
      e.getCofactor ∧
    (Nat.card {buf : List Byte // buf.length = 2 * e.f.sizeBytes + 1 ∧ ∃ P, e.decode buf = R.ok (.ok P) ∧ mSmall prof e P = R.ok true} : ℤ) + 1 =
      e.getCofactor ∧
    Nat.card {buf : List Byte // buf.length = e.f.sizeBytes + 1 ∧ ∃ P, e.decode buf = R.ok (.ok P) ∧ mMember prof e P = R.ok true} + 1 =
      e.getOrder ∧
    Nat.card {buf : List Byte // buf.length = 2 * e.f.sizeBytes + 1 ∧ ∃ P, e.decode buf = R.ok (.ok P) ∧ mMember prof e P = R.ok true} + 1 =
      e.getOrder := by
  have s8 : ¬ IsSquare (val Inst.curve25519_p Inst.curve25519.a ^ 2 - 4) := by
    have ha : val Inst.curve25519_p Inst.curve25519.a = ((486662 : ℕ) : ZMod Inst.curve25519_p) := by rfl
    rw [ha]
    have := NoRoot.not_isSquare_of_pow (p := Inst.curve25519_p) (486662 ^ 2 - 4) (by decide +kernel) (by decide +kernel)
    rw [Nat.cast_sub (by norm_num)] at this
    exact_mod_cast this
  have s4 : ¬ IsSquare (val Inst.curve448_p Inst.curve448.a ^ 2 - 4) := by
    have ha : val Inst.curve448_p Inst.curve448.a = ((156326 : ℕ) : ZMod Inst.curve448_p) := by rfl
    rw [ha]
    have := NoRoot.not_isSquare_of_pow (p := Inst.curve448_p) (156326 ^ 2 - 4) (by decide +kernel) (by decide +kernel)
    rw [Nat.cast_sub (by norm_num)] at this
    exact_mod_cast this
  rw [Inst.montgomeryList, Inst.c25519_p_eq, Inst.c448_p_eq]
  simp only [List.forall_mem_cons]
  exact ⟨⟨_, Inst.curve25519_eq, C119_montgomery Inst.curve25519_p _ Inst.curve25519_valid (by decide +kernel) s8 (by
      rw [Inst.card_curve25519, Curve.getOrder, Curve.getCofactor]; push_cast; rfl) (by decide +kernel) (by decide +kernel) (by decide +kernel)⟩,
    ⟨_, Inst.curve448_eq, C119_montgomery Inst.curve448_p _ Inst.curve448_valid (by decide +kernel) s4 (by
      rw [Inst.card_curve448, Curve.getOrder, Curve.getCofactor]; push_cast; rfl) (by decide +kernel) (by decide +kernel) (by decide +kernel)⟩, by simp⟩

end

end Props.Mo

namespace Props

open Weierstrass WLink RCB

/-- C119, the named curves of prime order: no accepted string stands for a point of small order. Multiplied by an integer that is not a multiple of the order, the point
is never the identity. -/
theorem _root_.Redox.Props.C119_named_prime : ∀ t ∈ Inst.primeOrderList, ∃ e : Curve, t.1 = R.ok e ∧ ∀ (prof : Profile) buf P, e.decode buf = R.ok (.ok P) →
    wSmall prof e P = R.ok false ∧ ∀ k : ℤ, ¬ (e.getOrder : ℤ) ∣ k → (do (← P.mul prof (← e.newScalar k)).eq (← e.identity)) = R.ok false := by
  have key : ∀ (c : R Curve) (p : ℕ) [Fact p.Prime] (e : Curve), c = R.ok e → WValid p e → 2 * p + 1 < 3 * e.r → (p % 4 = 3 ∨ p % 8 = 5) → e.h = 1 →
      ∃ e : Curve, c = R.ok e ∧ ∀ (prof : Profile) buf P, e.decode buf = R.ok (.ok P) →
        wSmall prof e P = R.ok false ∧ ∀ k : ℤ, ¬ (e.getOrder : ℤ) ∣ k → (do (← P.mul prof (← e.newScalar k)).eq (← e.identity)) = R.ok false := by
    intro c p _ e hc hv hb hs h1
    have hrp := hv.order_prime
    refine ⟨e, hc, fun prof buf P hP => ?_⟩
    obtain ⟨x, y, hn, c, -, dA⟩ := (C105_weierstrass_decode p e hv.curve hv.complete hs buf).1 P hP
    have hA : (.some x y hn : (wGroup p e).Point) ≠ 0 := by simp
    have hk : e.r • (.some x y hn : (wGroup p e).Point) = 0 := by
      rw [show e.r = Nat.card (wGroup p e).Point from (Inst.card_of_valid hv hb).symm]
      have : Finite (wGroup p e).Point := Inst.w_finite hv.curve
      exact card_nsmul_eq_zero'
    have ord : addOrderOf (.some x y hn : (wGroup p e).Point) = e.r := by
      have : Fact (Nat.Prime e.r) := ⟨hrp⟩
      exact addOrderOf_eq_prime hk hA
    obtain ⟨I, hI, dI, -⟩ := C22_identity p e hv.curve
    have main : ∀ k : ℤ, ¬ (e.r : ℤ) ∣ k → (do (← P.mul prof (← e.newScalar k)).eq (← e.identity)) = R.ok false := by
      intro k hk'
      obtain ⟨s, S, hs, hS, dS⟩ := Commit.w_mul p e hv prof dA hk k (Or.inl hk')
      simp only [hs, hS, hI, R.ok_bind, C27_eq p e _ _ _ _ dS dI]
      rw [decide_eq_false]
      rw [← addOrderOf_dvd_iff_zsmul_eq_zero, ord]
      exact hk'
    refine ⟨main e.getCofactor ?_, main⟩
    rw [Curve.getCofactor, h1]
    intro hd
    have := Int.le_of_dvd (by norm_num) hd
    have := hrp.two_le
    push_cast at *
    omega
  rw [Inst.primeOrderList, Inst.weierstrassList, Inst.p256_p_eq, Inst.p384_p_eq, Inst.p521_p_eq, Inst.secp256k1_p_eq, Inst.bls_p_eq]
  simp only [List.take, List.forall_mem_cons]
  exact ⟨key _ _ _ Inst.p256_eq Inst.p256_valid (by decide +kernel) (by decide +kernel) (by decide +kernel),
    key _ _ _ Inst.p384_eq Inst.p384_valid (by decide +kernel) (by decide +kernel) (by decide +kernel),
    key _ _ _ Inst.p521_eq Inst.p521_valid (by decide +kernel) (by decide +kernel) (by decide +kernel),
    key _ _ _ Inst.secp256k1_eq Inst.secp256k1_valid (by decide +kernel) (by decide +kernel) (by decide +kernel),
    key _ _ _ Inst.secp256k1_3iso_eq Inst.secp256k1_3iso_valid (by decide +kernel) (by decide +kernel) (by decide +kernel), by simp⟩

/-- The test of C99 for multiples of the generator (Weierstrass). -/
def wMember (prof : Profile) (e : Curve) (P : Point) : R Bool := do
  (← P.mul prof (← e.newScalar (-1))).eq (← P.neg)

section
variable (p : ℕ) [Fact p.Prime] (e : Curve)

theorem w_count (he : WCurve p e) (h2 : NoTwoTorsion p e) (hs : p % 4 = 3 ∨ p % 8 = 5) (S : (wGroup p e).Point → Prop) (T : Point → Prop)
    (hT : ∀ P A, WDenotes p e P A → (T P ↔ S A)) (c : Bool) :
    Nat.card {buf : List Byte // buf.length = (if c then e.f.sizeBytes + 1 else 2 * e.f.sizeBytes + 1) ∧ ∃ P, e.decode buf = R.ok (.ok P) ∧ T P} =
      Nat.card {A : (wGroup p e).Point // A ≠ 0 ∧ S A} := by
  have h1 := one_le_sizeBytes he
  have ex : ∀ A : {A : (wGroup p e).Point // A ≠ 0 ∧ S A}, ∃ bs, ∃ x y, ∃ hn : (wGroup p e).Nonsingular x y,
      A.1 = .some x y hn ∧ IsSec1 e.f.sizeBytes x y c bs := by
    rintro ⟨_ | ⟨x, y, hn⟩, hA⟩
    · exact absurd rfl hA.1
    · obtain ⟨bs, hbs⟩ := sec1_exists x y c
      exact ⟨bs, x, y, hn, rfl, by rwa [size_eq he]⟩
  choose f x y hn hA hf using ex
  have hd : ∀ A, ∃ P, e.decode (f A) = R.ok (.ok P) ∧ WDenotes p e P A.1 := fun A => by
    rw [hA A]
    exact (C105_weierstrass_decode p e he h2 hs (f A)).2 _ _ (hn A) c (hf A)
  symm
  refine Nat.card_congr (Equiv.ofBijective (fun A => ⟨f A, sec1_length (hf A), (hd A).imp fun P h => ⟨h.1, (hT P _ h.2).2 A.2.2⟩⟩) ⟨?_, ?_⟩)
  · intro A B hAB
    have hAB : f A = f B := congrArg Subtype.val hAB
    obtain ⟨P, hP, dP⟩ := hd A
    obtain ⟨Q, hQ, dQ⟩ := hd B
    rw [hAB, hQ, R.ok.injEq, Except.ok.injEq] at hP
    subst hP
    exact Subtype.ext (wDenotes_unique p e dP dQ)
  · rintro ⟨buf, hl, P, hP, hTP⟩
    obtain ⟨x', y', hn', c', hsec, dP⟩ := (C105_weierstrass_decode p e he h2 hs buf).1 P hP
    have hS := (hT P _ dP).1 hTP
    have hc : c' = c := by
      have := sec1_length hsec
      rw [hl] at this
      cases c <;> cases c' <;> simp at this ⊢ <;> omega
    subst hc
    have hne : (.some x' y' hn' : (wGroup p e).Point) ≠ 0 := by simp
    refine ⟨⟨.some x' y' hn', hne, hS⟩, Subtype.ext ?_⟩
    have h3 := hA ⟨.some x' y' hn', hne, hS⟩
    have h4 := hf ⟨.some x' y' hn', hne, hS⟩
    simp only [WeierstrassCurve.Affine.Point.some.injEq] at h3
    rw [← h3.1, ← h3.2] at h4
    exact h4.unique hsec

/-- C119, Weierstrass: on a valid curve whose number of points is not a multiple of the square of the order, the test of C99 is true for exactly `get_order() - 1`
strings of either form. -/
theorem _root_.Redox.Props.C119_weierstrass (h : WValid p e) (hs : p % 4 = 3 ∨ p % 8 = 5)
    (hcard : ¬ e.getOrder * e.getOrder ∣ Nat.card (wGroup p e).Point) (prof : Profile) :
    (∀ buf P, e.decode buf = R.ok (.ok P) → ∃ b, wMember prof e P = R.ok b) ∧
    Nat.card {buf : List Byte // buf.length = e.f.sizeBytes + 1 ∧ ∃ P, e.decode buf = R.ok (.ok P) ∧ wMember prof e P = R.ok true} + 1 =
      e.getOrder ∧
    Nat.card {buf : List Byte // buf.length = 2 * e.f.sizeBytes + 1 ∧ ∃ P, e.decode buf = R.ok (.ok P) ∧ wMember prof e P = R.ok true} + 1 =
      e.getOrder := by
  have : Finite (wGroup p e).Point := Inst.w_finite h.curve
  obtain ⟨G, g, hG, hg, ho⟩ := h.generator
  have member : ∀ P A, WDenotes p e P A → (wMember prof e P = R.ok true ↔ ∃ n : ℤ, A = n • g) := by
    intro P A hP
    obtain ⟨b, hb, hi⟩ := C99_weierstrass p e h prof P A hP
    rw [wMember, hb, R.ok.injEq, hi]
    exact Subgroup.killed_iff h.order_prime ho hcard A
  have cm := card_member ho
  rw [← card_nonzero_sub (fun A : (wGroup p e).Point => ∃ n : ℤ, A = n • g) ⟨0, (zero_zsmul g).symm⟩] at cm
  have key := w_count p e h.curve h.complete hs (fun A => ∃ n : ℤ, A = n • g) (fun P => wMember prof e P = R.ok true) member
  refine ⟨fun buf P hP => ?_, ?_, ?_⟩
  · obtain ⟨x, y, hn, c, -, dA⟩ := (C105_weierstrass_decode p e h.curve h.complete hs buf).1 P hP
    exact (C99_weierstrass p e h prof P _ dA).imp fun b hb => hb.1
  · rw [← cm]
    exact congrArg (· + 1) (key true)
  · rw [← cm]
    exact congrArg (· + 1) (key false)

end

/-- C119, the seven named Weierstrass curves. On the two curves of BLS12-381 these are few of the accepted strings (C106). -/
theorem _root_.Redox.Props.C119_named_weierstrass : ∀ t ∈ Inst.weierstrassList, ∃ e : Curve, t.1 = R.ok e ∧ ∀ prof : Profile,
    (∀ buf P, e.decode buf = R.ok (.ok P) → ∃ b, wMember prof e P = R.ok b) ∧
    Nat.card {buf : List Byte // buf.length = e.f.sizeBytes + 1 ∧ ∃ P, e.decode buf = R.ok (.ok P) ∧ wMember prof e P = R.ok true} + 1 =
      e.getOrder ∧
    Nat.card {buf : List Byte // buf.length = 2 * e.f.sizeBytes + 1 ∧ ∃ P, e.decode buf = R.ok (.ok P) ∧ wMember prof e P = R.ok true} + 1 =
      e.getOrder := by
  have key1 : ∀ (p : ℕ) [Fact p.Prime] (e : Curve), WValid p e → 2 * p + 1 < 3 * e.r → ¬ e.getOrder * e.getOrder ∣ Nat.card (wGroup p e).Point := by
    intro p _ e hv hb
    have hr2 : 2 ≤ e.r := hv.order_prime.two_le
    have := Subgroup.sq_not_dvd (r := e.r) (h := 1) (by omega) one_ne_zero (by omega)
    rw [Inst.card_of_valid hv hb]
    simpa [Curve.getOrder] using this
  rw [Inst.weierstrassList, Inst.p256_p_eq, Inst.p384_p_eq, Inst.p521_p_eq, Inst.secp256k1_p_eq, Inst.bls_p_eq]
  simp only [List.forall_mem_cons]
  exact ⟨⟨_, Inst.p256_eq, C119_weierstrass _ _ Inst.p256_valid (by decide +kernel) (key1 _ _ Inst.p256_valid (by decide +kernel))⟩,
    ⟨_, Inst.p384_eq, C119_weierstrass _ _ Inst.p384_valid (by decide +kernel) (key1 _ _ Inst.p384_valid (by decide +kernel))⟩,
    ⟨_, Inst.p521_eq, C119_weierstrass _ _ Inst.p521_valid (by decide +kernel) (key1 _ _ Inst.p521_valid (by decide +kernel))⟩,
    ⟨_, Inst.secp256k1_eq, C119_weierstrass _ _ Inst.secp256k1_valid (by decide +kernel) (key1 _ _ Inst.secp256k1_valid (by decide +kernel))⟩,
    ⟨_, Inst.secp256k1_3iso_eq, C119_weierstrass _ _ Inst.secp256k1_3iso_valid (by decide +kernel)
      (key1 _ _ Inst.secp256k1_3iso_valid (by decide +kernel))⟩,
    ⟨_, Inst.bls12381g1_eq, C119_weierstrass _ _ Inst.bls12381g1_valid (by decide +kernel) (by rw [Inst.card_bls]; decide +kernel)⟩,
    ⟨_, Inst.bls12381g1_11iso_eq, C119_weierstrass _ _ Inst.bls12381g1_11iso_valid (by decide +kernel) (by
      rw [show Nat.card (wGroup Inst.bls12381g1_p Inst.bls12381g1_11iso).Point = _ from Isog.card_bls_iso]; decide +kernel)⟩, by simp⟩

end Props

end Redox
