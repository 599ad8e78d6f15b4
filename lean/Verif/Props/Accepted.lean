import Verif.Props.Received

/-!
# C106: how many byte strings are accepted as points
-/

set_option linter.unusedSectionVars false

namespace Redox

open Spec

namespace Props

theorem sec1_exists {p : ℕ} [Fact p.Prime] (x y : ZMod p) (c : Bool) : ∃ bs, IsSec1 ((Big.bits p + 7) / 8) x y c bs := by
  have hp := (Fact.out : p.Prime)
  have len : ∀ v : ZMod p, (Big.fixedBE ((Big.bits p + 7) / 8) v.val).length = (Big.bits p + 7) / 8 := fun v =>
    Big.fixedBE_length (Big.one_le_size hp.ne_zero) (lt_trans (ZMod.val_lt v) (Big.lt_256_pow_size p))
  exact ⟨_, _, _, len x, len y, by rw [beValue_eq, fromBE_fixed0], by rw [beValue_eq, fromBE_fixed0], rfl⟩

theorem sec1_length {p n : ℕ} {x y : ZMod p} {c : Bool} {bs : List Byte} (h : IsSec1 n x y c bs) :
    bs.length = if c then n + 1 else 2 * n + 1 := by
  obtain ⟨xs, ys, lx, ly, -, -, rfl⟩ := h
  cases c
  · simp [lx, ly]; omega
  · simp [lx]

theorem card_nonzero {G : Type} [AddCommGroup G] [Finite G] : Nat.card {A : G // A ≠ 0} + 1 = Nat.card G := by
  have h := Set.ncard_sdiff_singleton_add_one (s := (Set.univ : Set G)) (a := 0) (Set.mem_univ _)
  rw [Set.ncard_univ] at h
  rw [← h, ← Nat.card_coe_set_eq]
  congr 1
  exact Nat.card_congr (Equiv.subtypeEquivRight fun A => by simp)

end Props

namespace Props

open Weierstrass WLink RCB

section
variable (p : ℕ) [Fact p.Prime] (e : Curve)

theorem wDenotes_unique {P : Point} {A B : (wGroup p e).Point} (hA : WDenotes p e P A) (hB : WDenotes p e P B) : A = B := by
  have h1 := C27_eq p e P P A B hA hB
  rw [C27_eq p e P P A A hA hA, R.ok.injEq, decide_eq_true rfl] at h1
  exact of_decide_eq_true h1.symm

/-- C106, Weierstrass: on a curve without points of order two, the number of strings of each of the two lengths that `decode` accepts is the number of
affine points; strings of other lengths are not accepted. -/
theorem _root_.Redox.Props.C106_weierstrass (he : WCurve p e) (h2 : NoTwoTorsion p e) (hs : p % 4 = 3 ∨ p % 8 = 5) :
    Nat.card {buf : List Byte // buf.length = e.f.sizeBytes + 1 ∧ ∃ P, e.decode buf = R.ok (.ok P)} + 1 = Nat.card (wGroup p e).Point ∧
    Nat.card {buf : List Byte // buf.length = 2 * e.f.sizeBytes + 1 ∧ ∃ P, e.decode buf = R.ok (.ok P)} + 1 = Nat.card (wGroup p e).Point ∧
    ∀ buf P, e.decode buf = R.ok (.ok P) → buf.length = e.f.sizeBytes + 1 ∨ buf.length = 2 * e.f.sizeBytes + 1 := by
  have h1 := one_le_sizeBytes he
  have : Finite (wGroup p e).Point := Inst.w_finite he
  have key : ∀ c : Bool, Nat.card {buf : List Byte // buf.length = (if c then e.f.sizeBytes + 1 else 2 * e.f.sizeBytes + 1) ∧
      ∃ P, e.decode buf = R.ok (.ok P)} + 1 = Nat.card (wGroup p e).Point := by
    intro c
    rw [← card_nonzero (G := (wGroup p e).Point)]
    congr 1
    have ex : ∀ A : {A : (wGroup p e).Point // A ≠ 0}, ∃ bs, ∃ x y, ∃ hn : (wGroup p e).Nonsingular x y,
        A.1 = .some x y hn ∧ IsSec1 e.f.sizeBytes x y c bs := by
      rintro ⟨_ | ⟨x, y, hn⟩, hA⟩
      · exact absurd rfl hA
      · obtain ⟨bs, hbs⟩ := sec1_exists x y c
        exact ⟨bs, x, y, hn, rfl, by rwa [size_eq he]⟩
    choose f x y hn hA hf using ex
    have hd : ∀ A, ∃ P, e.decode (f A) = R.ok (.ok P) ∧ WDenotes p e P A.1 := fun A => by
      rw [hA A]
      exact (C105_weierstrass_decode p e he h2 hs (f A)).2 _ _ (hn A) c (hf A)
    symm
    refine Nat.card_congr (Equiv.ofBijective (fun A => ⟨f A, sec1_length (hf A), (hd A).imp fun _ h => h.1⟩) ⟨?_, ?_⟩)
    · intro A B hAB
      have hAB : f A = f B := congrArg Subtype.val hAB
      obtain ⟨P, hP, dP⟩ := hd A
      obtain ⟨Q, hQ, dQ⟩ := hd B
      rw [hAB, hQ, R.ok.injEq, Except.ok.injEq] at hP
      subst hP
      exact Subtype.ext (wDenotes_unique p e dP dQ)
    · rintro ⟨buf, hl, P, hP⟩
      obtain ⟨x', y', hn', c', hsec, -⟩ := (C105_weierstrass_decode p e he h2 hs buf).1 P hP
      have hc : c' = c := by
        have := sec1_length hsec
        rw [hl] at this
        cases c <;> cases c' <;> simp at this ⊢ <;> omega
      subst hc
      have hne : (.some x' y' hn' : (wGroup p e).Point) ≠ 0 := by simp
      refine ⟨⟨.some x' y' hn', hne⟩, Subtype.ext ?_⟩
      have h3 := hA ⟨.some x' y' hn', hne⟩
      have h4 := hf ⟨.some x' y' hn', hne⟩
      simp only [WeierstrassCurve.Affine.Point.some.injEq] at h3
      rw [← h3.1, ← h3.2] at h4
      exact h4.unique hsec
  refine ⟨key true, key false, fun buf P h => ?_⟩
  obtain ⟨x, y, hn, c, hsec, -⟩ := (C105_weierstrass_decode p e he h2 hs buf).1 P h
  have := sec1_length hsec
  cases c
  · exact Or.inr this
  · exact Or.inl this

/-- C106, the named curves of prime order: `get_order() - 1` strings of either length. -/
theorem _root_.Redox.Props.C106_named_prime : ∀ t ∈ Inst.primeOrderList, ∃ e : Curve, t.1 = R.ok e ∧
    Nat.card {buf : List Byte // buf.length = e.f.sizeBytes + 1 ∧ ∃ P, e.decode buf = R.ok (.ok P)} + 1 = e.getOrder ∧
    Nat.card {buf : List Byte // buf.length = 2 * e.f.sizeBytes + 1 ∧ ∃ P, e.decode buf = R.ok (.ok P)} + 1 = e.getOrder := by
  have key : ∀ (c : R Curve) (p : ℕ) [Fact p.Prime] (e : Curve), c = R.ok e → WValid p e → 2 * p + 1 < 3 * e.r → (p % 4 = 3 ∨ p % 8 = 5) →
      ∃ e : Curve, c = R.ok e ∧
        Nat.card {buf : List Byte // buf.length = e.f.sizeBytes + 1 ∧ ∃ P, e.decode buf = R.ok (.ok P)} + 1 = e.getOrder ∧
        Nat.card {buf : List Byte // buf.length = 2 * e.f.sizeBytes + 1 ∧ ∃ P, e.decode buf = R.ok (.ok P)} + 1 = e.getOrder :=
    fun c p _ e hc hv hb hs => by
      obtain ⟨h1, h2, -⟩ := C106_weierstrass p e hv.curve hv.complete hs
      rw [Inst.card_of_valid hv hb] at h1 h2
      exact ⟨e, hc, h1, h2⟩
  rw [Inst.primeOrderList, Inst.weierstrassList, Inst.p256_p_eq, Inst.p384_p_eq, Inst.p521_p_eq, Inst.secp256k1_p_eq, Inst.bls_p_eq]
  simp only [List.take, List.forall_mem_cons]
  exact ⟨key _ _ _ Inst.p256_eq Inst.p256_valid (by decide +kernel) (by decide +kernel),
    key _ _ _ Inst.p384_eq Inst.p384_valid (by decide +kernel) (by decide +kernel),
    key _ _ _ Inst.p521_eq Inst.p521_valid (by decide +kernel) (by decide +kernel),
    key _ _ _ Inst.secp256k1_eq Inst.secp256k1_valid (by decide +kernel) (by decide +kernel),
    key _ _ _ Inst.secp256k1_3iso_eq Inst.secp256k1_3iso_valid (by decide +kernel) (by decide +kernel), by simp⟩

/-- C106, BLS12-381 G1: the number of points in the specification of the curve, less one, strings of either length. -/
theorem _root_.Redox.Props.C106_bls12381g1 : ∃ e : Curve, BLS12381G1 = R.ok e ∧
    Nat.card {buf : List Byte // buf.length = e.f.sizeBytes + 1 ∧ ∃ P, e.decode buf = R.ok (.ok P)} + 1 =
      (Inst.blsX + 1) ^ 2 / 3 * Inst.blsR ∧
    Nat.card {buf : List Byte // buf.length = 2 * e.f.sizeBytes + 1 ∧ ∃ P, e.decode buf = R.ok (.ok P)} + 1 =
      (Inst.blsX + 1) ^ 2 / 3 * Inst.blsR := by
  obtain ⟨h1, h2, -⟩ := C106_weierstrass Inst.bls12381g1_p Inst.bls12381g1 Inst.bls12381g1_valid.curve Inst.bls12381g1_valid.complete (by decide +kernel)
  rw [Inst.card_bls, Inst.blsN] at h1 h2
  exact ⟨_, Inst.bls12381g1_eq, h1, h2⟩

end

end Props

namespace Props.Mo

open Montgomery MLink Mont

section
variable (p : ℕ) [Fact p.Prime] (e : Curve)

theorem mDenotes_unique {P : Point} {A B : (mGroup p e).Point} (hA : MDenotes p e P A) (hB : MDenotes p e P B) : A = B := by
  have h1 := (C32_eq p e P P A B hA hB).1
  rw [(C32_eq p e P P A A hA hA).1, R.ok.injEq, decide_eq_true rfl] at h1
  exact of_decide_eq_true h1.symm

theorem reads_length {n : ℕ} {x y : ZMod p} {bs : List Byte} (h : ReadsAs n x y bs) : bs.length = n + 1 ∨ bs.length = 2 * n + 1 := by
  rcases h with ⟨c, h⟩ | ⟨-, xs, lx, -, rfl⟩
  · have := sec1_length h
    cases c
    · exact Or.inr this
    · exact Or.inl this
  · left; simp [lx]

/-- C106, Montgomery: the number of uncompressed strings that `decode` accepts is the number of affine points; compressed ones are more by the number of
points with `y = 0`, which have two. -/
theorem _root_.Redox.Props.C106_montgomery (he : MCurve p e) (hb : val p e.b = 1) (hs : p % 4 = 3 ∨ p % 8 = 5) :
    Nat.card {buf : List Byte // buf.length = e.f.sizeBytes + 1 ∧ ∃ P, e.decode buf = R.ok (.ok P)} + 1 =
      Nat.card (mGroup p e).Point + Nat.card {x : ZMod p // x ^ 3 + val p e.a * x ^ 2 + x = 0} ∧
    Nat.card {buf : List Byte // buf.length = 2 * e.f.sizeBytes + 1 ∧ ∃ P, e.decode buf = R.ok (.ok P)} + 1 = Nat.card (mGroup p e).Point ∧
    ∀ buf P, e.decode buf = R.ok (.ok P) → buf.length = e.f.sizeBytes + 1 ∨ buf.length = 2 * e.f.sizeBytes + 1 := by
  have h1 := one_le_sizeBytes he
  have : Finite (mGroup p e).Point := Inst.m_finite he
  have ns : ∀ x : ZMod p, x ^ 3 + val p e.a * x ^ 2 + x = 0 → (mGroup p e).Nonsingular x 0 := by
    intro x hx
    obtain ⟨A, hA⟩ := exists_rep (a := val p e.a) (x := x) (y := 0) (z := 1) (by have := MLink.two_lt_of he; omega) (ea_ne he)
      (by linear_combination -hx) (Or.inr one_ne_zero)
    rcases A with _ | ⟨u, v, hn⟩
    · exact absurd hA.2.2 one_ne_zero
    · obtain ⟨-, hx, hy⟩ := id hA
      rw [mul_one] at hx hy
      subst hx
      rw [hy]
      exact hn
  have two : ∀ {x y : ZMod p} {xs : List Byte}, y = 0 → ¬ IsSec1 e.f.sizeBytes x y true (3 :: xs) := by
    rintro x y xs rfl ⟨xs', ys', -, -, -, -, h⟩
    simp at h
  have ex : ∀ (c : Bool) (A : {A : (mGroup p e).Point // A ≠ 0}), ∃ bs, ∃ x y, ∃ hn : (mGroup p e).Nonsingular x y,
      A.1 = .some x y hn ∧ IsSec1 e.f.sizeBytes x y c bs := by
    rintro c ⟨_ | ⟨x, y, hn⟩, hA⟩
    · exact absurd rfl hA
    · obtain ⟨bs, hbs⟩ := sec1_exists x y c
      exact ⟨bs, x, y, hn, rfl, by rwa [size_eq he]⟩
  choose f x y hn hA hf using ex
  have hd : ∀ c A, ∃ P, e.decode (f c A) = R.ok (.ok P) ∧ MDenotes p e P A.1 := fun c A => by
    rw [hA c A]
    exact (C105_montgomery_decode p e he hb hs (f c A)).2 _ _ (hn c A) (Or.inl ⟨c, hf c A⟩)
  have finj : ∀ c, Function.Injective (f c) := by
    intro c A B hAB
    obtain ⟨P, hP, dP⟩ := hd c A
    obtain ⟨Q, hQ, dQ⟩ := hd c B
    rw [hAB, hQ, R.ok.injEq, Except.ok.injEq] at hP
    subst hP
    exact Subtype.ext (mDenotes_unique p e dP dQ)
  have fsurj : ∀ c {x' y' : ZMod p} (hn' : (mGroup p e).Nonsingular x' y') {bs : List Byte}, IsSec1 e.f.sizeBytes x' y' c bs → ∃ A, f c A = bs := by
    intro c x' y' hn' bs hsec
    have hne : (.some x' y' hn' : (mGroup p e).Point) ≠ 0 := by simp
    refine ⟨⟨.some x' y' hn', hne⟩, ?_⟩
    have h3 := hA c ⟨.some x' y' hn', hne⟩
    have h4 := hf c ⟨.some x' y' hn', hne⟩
    simp only [WeierstrassCurve.Affine.Point.some.injEq] at h3
    rw [← h3.1, ← h3.2] at h4
    exact h4.unique hsec
  have len : ∀ v : ZMod p, (Big.fixedBE ((Big.bits p + 7) / 8) v.val).length = e.f.sizeBytes := fun v => fixedBE_len he v
  let g : {x : ZMod p // x ^ 3 + val p e.a * x ^ 2 + x = 0} → List Byte := fun x => 3 :: Big.fixedBE ((Big.bits p + 7) / 8) x.1.val
  have hg : ∀ x, ReadsAs e.f.sizeBytes x.1 0 (g x) := fun x =>
    Or.inr ⟨rfl, _, len x.1, by rw [beValue_eq, fromBE_fixed0], rfl⟩
  have hgd : ∀ x, ∃ P, e.decode (g x) = R.ok (.ok P) ∧ MDenotes p e P (.some x.1 0 (ns x.1 x.2)) := fun x =>
    (C105_montgomery_decode p e he hb hs (g x)).2 _ _ (ns x.1 x.2) (hg x)
  refine ⟨?_, ?_, fun buf P h => ?_⟩
  · rw [← card_nonzero (G := (mGroup p e).Point), add_right_comm, add_left_inj, ← Nat.card_sum]
    symm
    refine Nat.card_congr (Equiv.ofBijective (Sum.elim (fun A => ⟨f true A, sec1_length (hf true A), (hd true A).imp fun _ h => h.1⟩)
      (fun x => ⟨g x, by simp [g, len x.1], (hgd x).imp fun _ h => h.1⟩)) ⟨?_, ?_⟩)
    · have mix : ∀ A x, f true A ≠ g x := by
        intro A x' hAx
        obtain ⟨P, hP, dP⟩ := hd true A
        obtain ⟨Q, hQ, dQ⟩ := hgd x'
        rw [hAx, hQ, R.ok.injEq, Except.ok.injEq] at hP
        subst hP
        have h3 := (hA true A).symm.trans (mDenotes_unique p e dP dQ)
        simp only [WeierstrassCurve.Affine.Point.some.injEq] at h3
        have h4 := hf true A
        rw [hAx] at h4
        exact two h3.2 h4
      rintro (A | x) (B | x') h
      · exact congrArg _ (finj true (congrArg Subtype.val h))
      · exact absurd (congrArg Subtype.val h) (mix A x')
      · exact absurd (congrArg Subtype.val h).symm (mix B x)
      · have h : g x = g x' := congrArg Subtype.val h
        have h' := congrArg Big.fromBytesBE (List.cons.inj h).2
        rw [fromBE_fixed0, fromBE_fixed0] at h'
        exact congrArg _ (Subtype.ext (ZMod.val_injective p h'))
    · rintro ⟨buf, hl, P, hP⟩
      obtain ⟨x', y', hn', hr, -⟩ := (C105_montgomery_decode p e he hb hs buf).1 P hP
      rcases hr with ⟨c, hsec⟩ | ⟨rfl, xs, lx, vx, rfl⟩
      · have hc : c = true := by
          have := sec1_length hsec
          rw [hl] at this
          cases c <;> simp at this ⊢
          omega
        subst hc
        obtain ⟨A, hA⟩ := fsurj true hn' hsec
        exact ⟨Sum.inl A, Subtype.ext hA⟩
      · have hx0 : x' ^ 3 + val p e.a * x' ^ 2 + x' = 0 := by
          have := ((nonsingular_iff _ x' 0).1 hn').1
          linear_combination -this
        refine ⟨Sum.inr ⟨x', hx0⟩, Subtype.ext ?_⟩
        show 3 :: _ = 3 :: xs
        congr 1
        refine Big.fromBytesBE_inj ((len x').trans lx.symm) ?_
        rw [fromBE_fixed0, ← vx, beValue_eq]
  · rw [← card_nonzero (G := (mGroup p e).Point)]
    congr 1
    symm
    refine Nat.card_congr (Equiv.ofBijective (fun A => ⟨f false A, sec1_length (hf false A), (hd false A).imp fun _ h => h.1⟩) ⟨?_, ?_⟩)
    · intro A B hAB
      exact finj false (congrArg Subtype.val hAB)
    · rintro ⟨buf, hl, P, hP⟩
      obtain ⟨x', y', hn', hr, -⟩ := (C105_montgomery_decode p e he hb hs buf).1 P hP
      rcases hr with ⟨c, hsec⟩ | ⟨rfl, xs, lx, vx, rfl⟩
      · have hc : c = false := by
          have := sec1_length hsec
          rw [hl] at this
          cases c <;> simp at this ⊢
          omega
        subst hc
        obtain ⟨A, hA⟩ := fsurj false hn' hsec
        exact ⟨A, Subtype.ext hA⟩
      · simp [lx] at hl
        omega
  · obtain ⟨x', y', hn', hr, -⟩ := (C105_montgomery_decode p e he hb hs buf).1 P h
    exact reads_length p hr

theorem one_root {a : ZMod p} (h : ¬ IsSquare (a ^ 2 - 4)) : Nat.card {x : ZMod p // x ^ 3 + a * x ^ 2 + x = 0} = 1 := by
  rw [Nat.card_eq_one_iff_unique]
  refine ⟨⟨?_⟩, ⟨⟨0, by ring⟩⟩⟩
  have key : ∀ x : ZMod p, x ^ 3 + a * x ^ 2 + x = 0 → x = 0 := by
    intro x hx
    by_contra h0
    have h1 : x ^ 2 + a * x + 1 = 0 := by
      have : x * (x ^ 2 + a * x + 1) = 0 := by linear_combination hx
      exact (mul_eq_zero.1 this).resolve_left h0
    exact h ⟨2 * x + a, by linear_combination (-4) * h1⟩
  rintro ⟨x, hx⟩ ⟨x', hx'⟩
  exact Subtype.ext ((key x hx).trans (key x' hx').symm)

/-- C106, the named Montgomery curves: the cofactor times the order compressed strings, one fewer uncompressed. -/
theorem _root_.Redox.Props.C106_named_montgomery : ∀ t ∈ Inst.montgomeryList, ∃ e : Curve, t.1 = R.ok e ∧
    (Nat.card {buf : List Byte // buf.length = e.f.sizeBytes + 1 ∧ ∃ P, e.decode buf = R.ok (.ok P)} : ℤ) = e.getOrder * e.getCofactor ∧
    (Nat.card {buf : List Byte // buf.length = 2 * e.f.sizeBytes + 1 ∧ ∃ P, e.decode buf = R.ok (.ok P)} : ℤ) + 1 =
      e.getOrder * e.getCofactor := by
  have key : ∀ (p : ℕ) [Fact p.Prime] (e : Curve), MValid p e → (p % 4 = 3 ∨ p % 8 = 5) → ¬ IsSquare (val p e.a ^ 2 - 4) →
      (Nat.card (mGroup p e).Point : ℤ) = e.getOrder * e.getCofactor →
      (Nat.card {buf : List Byte // buf.length = e.f.sizeBytes + 1 ∧ ∃ P, e.decode buf = R.ok (.ok P)} : ℤ) = e.getOrder * e.getCofactor ∧
      (Nat.card {buf : List Byte // buf.length = 2 * e.f.sizeBytes + 1 ∧ ∃ P, e.decode buf = R.ok (.ok P)} : ℤ) + 1 =
        e.getOrder * e.getCofactor := by
    intro p _ e hv hs hsq hc
    obtain ⟨h1, h2, -⟩ := C106_montgomery p e hv.curve hv.b_one hs
    rw [one_root p hsq] at h1
    rw [← hc]
    constructor
    · have : Nat.card {buf : List Byte // buf.length = e.f.sizeBytes + 1 ∧ ∃ P, e.decode buf = R.ok (.ok P)} = Nat.card (mGroup p e).Point := by omega
      rw [this]
    · exact_mod_cast h2
  have h8 : Nat.card (mGroup Inst.curve25519_p Inst.curve25519).Point = Inst.curve25519.r * Inst.curve25519.h := by
    rw [Inst.card_curve25519]
    decide +kernel
  have h4 : Nat.card (mGroup Inst.curve448_p Inst.curve448).Point = Inst.curve448.r * Inst.curve448.h := by
    rw [Inst.card_curve448]
    decide +kernel
  have s8 : ¬ IsSquare (val Inst.curve25519_p Inst.curve25519.a ^ 2 - 4) := by
    have ha : val Inst.curve25519_p Inst.curve25519.a = ((486662 : ℕ) : ZMod Inst.curve25519_p) := by rfl
    rw [ha]
    have := NoRoot.not_isSquare_of_pow (p := Inst.curve25519_p) (486662 ^ 2 - 4) (by decide +kernel) (by decide +kernel)
    rw [Nat.cast_sub (by norm_num)] at this
    exact_mod_cast this
  have s4 : ¬ IsSquare (val Inst.curve448_p Inst.curve448.a ^ 2 - 4) := by
    have ha : val Inst.curve448_p Inst.curve448.a = ((156326 : ℕ) : ZMod Inst.curve448_p) := by rfl
    rw [ha]
    have := NoRoot.not_isSquare_of_pow (p := Inst.curve448_p) (156326 ^ 2 - 4) (by decide +kernel) (by decide +kernel)
    rw [Nat.cast_sub (by norm_num)] at this
    exact_mod_cast this
  rw [Inst.montgomeryList, Inst.c25519_p_eq, Inst.c448_p_eq]
  simp only [List.forall_mem_cons]
  exact ⟨⟨_, Inst.curve25519_eq, key _ _ Inst.curve25519_valid (by decide +kernel) s8 (by
      rw [h8, Curve.getOrder, Curve.getCofactor]; push_cast; rfl)⟩,
    ⟨_, Inst.curve448_eq, key _ _ Inst.curve448_valid (by decide +kernel) s4 (by
      rw [h4, Curve.getOrder, Curve.getCofactor]; push_cast; rfl)⟩, by simp⟩

end

end Props.Mo

namespace Props.Ed

open Edwards ELink Edw

section
variable (p : ℕ) [Fact p.Prime] (e : Curve)

/-- C106, Edwards: the number of strings that `decode` accepts is the number of points. -/
theorem _root_.Redox.Props.C106_edwards [he : ECurve p e] (hs : p % 4 = 3 ∨ p % 8 = 5) :
    Nat.card {buf : List Byte // ∃ P, e.decode buf = R.ok (.ok P)} = Nat.card (eGroup p e) := by
  have ex : ∀ A : eGroup p e, ∃ bs, IsRfc8032 A bs := fun A => by
    obtain ⟨bs, Q, -, h2, h3, -⟩ := C39_roundtrip p e hs _ A (denotes_affine A) true
    exact ⟨bs, h2, h3⟩
  choose f hf using ex
  have hd : ∀ A, ∃ P, e.decode (f A) = R.ok (.ok P) ∧ EDenotes p e P A := fun A => (C105_edwards_decode p e hs (f A)).2 A (hf A)
  symm
  refine Nat.card_congr (Equiv.ofBijective (fun A => ⟨f A, (hd A).imp fun _ h => h.1⟩) ⟨?_, ?_⟩)
  · intro A B hAB
    have hAB : f A = f B := congrArg Subtype.val hAB
    obtain ⟨P, hP, dP⟩ := hd A
    obtain ⟨Q, hQ, dQ⟩ := hd B
    rw [hAB, hQ, R.ok.injEq, Except.ok.injEq] at hP
    subst hP
    have h1 := C36_eq p e Q Q A B dP dQ
    rw [C36_eq p e Q Q A A dP dP, R.ok.injEq, decide_eq_true rfl] at h1
    exact of_decide_eq_true h1.symm
  · rintro ⟨buf, P, hP⟩
    obtain ⟨A, hA, -⟩ := (C105_edwards_decode p e hs buf).1 P hP
    exact ⟨A, Subtype.ext (rfc_unique p e (hf A) hA)⟩

end

/-- C106, the named Edwards curves: the cofactor times the order strings. -/
theorem _root_.Redox.Props.C106_named_edwards : ∀ t ∈ Inst.edwardsList, ∃ e : Curve, t.1 = R.ok e ∧
    (Nat.card {buf : List Byte // ∃ P, e.decode buf = R.ok (.ok P)} : ℤ) = e.getOrder * e.getCofactor := by
  have : ECurve Inst.curve25519_p Inst.edwards25519 := Inst.edwards25519_valid.curve
  have : ECurve Inst.curve448_p Inst.edwards448 := Inst.edwards448_valid.curve
  have h8 : Nat.card (eGroup Inst.curve25519_p Inst.edwards25519) = Inst.edwards25519.r * Inst.edwards25519.h := by
    rw [Inst.card_edwards25519]
    decide +kernel
  have h4 : Nat.card (eGroup Inst.curve448_p Inst.edwards448) = Inst.edwards448.r * Inst.edwards448.h := by
    rw [Inst.card_edwards448]
    decide +kernel
  rw [Inst.edwardsList, Inst.c25519_p_eq, Inst.c448_p_eq]
  simp only [List.forall_mem_cons]
  exact ⟨⟨_, Inst.edwards25519_eq, by
      rw [C106_edwards Inst.curve25519_p _ (by decide +kernel), h8, Curve.getOrder, Curve.getCofactor]; push_cast; rfl⟩,
    ⟨_, Inst.edwards448_eq, by
      rw [C106_edwards Inst.curve448_p _ (by decide +kernel), h4, Curve.getOrder, Curve.getCofactor]; push_cast; rfl⟩, by simp⟩

end Props.Ed

end Redox
