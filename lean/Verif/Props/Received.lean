import Verif.Props.Sec1
import Verif.Props.EdwCodec
import Verif.Props.CofactorProps

/-!
# C105: keys and signatures received as arbitrary byte strings

What a party computes from bytes that an untrusted sender chose: the shared secret of a key agreement, and the verdict of a signature check. Exactly
the encodings of points of the curve are used; every other string ends in an error or a panic and never in a result.
-/

set_option linter.unusedSectionVars false

namespace Redox

open Spec

/-- The strings that are read as the affine point `(x, y)`: its two octet strings of SEC 1 and, if `y = 0`, also the compressed one with the tag `03`. -/
def Spec.ReadsAs {p : ℕ} (n : ℕ) (x y : ZMod p) (bs : List Byte) : Prop :=
  (∃ c, IsSec1 n x y c bs) ∨ (y = 0 ∧ ∃ xs, xs.length = n ∧ Props.beValue xs = x.val ∧ bs = 3 :: xs)

/-- What the library writes for a point of a Weierstrass curve: its octet string of SEC 1; the identity is written like the pair `(0, 0)` (C28). -/
def Spec.WWrites {p : ℕ} {W : WeierstrassCurve.Affine (ZMod p)} (n : ℕ) (A : W.Point) (c : Bool) (bs : List Byte) : Prop :=
  match A with
  | .zero => IsSec1 n (0 : ZMod p) 0 c bs
  | .some x y _ => IsSec1 n x y c bs

/-- The encoding of RFC 8032: `y` in the low bits, the parity of `x` in the top bit, least significant byte first. -/
def Spec.IsRfc8032 {p : ℕ} [Fact p.Prime] {e : Edwards.Curve} (A : eGroup p e) (bs : List Byte) : Prop :=
  bs.length = (Big.bits p + 8) / 8 ∧ Props.Ed.leValue bs = A.y.val + 2 ^ (8 * bs.length - 1) * (A.x.val % 2)

theorem Spec.IsSec1.unique {p n : ℕ} {x y : ZMod p} {c : Bool} {bs bs' : List Byte} (h : IsSec1 n x y c bs) (h' : IsSec1 n x y c bs') :
    bs = bs' := by
  obtain ⟨xs, ys, lx, ly, vx, vy, rfl⟩ := h
  obtain ⟨xs', ys', lx', ly', vx', vy', rfl⟩ := h'
  rw [Props.beValue_eq] at vx vy vx' vy'
  rw [Big.fromBytesBE_inj (lx.trans lx'.symm) (vx.trans vx'.symm), Big.fromBytesBE_inj (ly.trans ly'.symm) (vy.trans vy'.symm)]

theorem Spec.WWrites.unique {p n : ℕ} {W : WeierstrassCurve.Affine (ZMod p)} {A : W.Point} {c : Bool} {bs bs' : List Byte}
    (h : WWrites n A c bs) (h' : WWrites n A c bs') : bs = bs' := by
  cases A with
  | zero => exact IsSec1.unique h h'
  | some x y hn => exact IsSec1.unique h h'

namespace Props

/-- The shared secret of a key agreement on a Weierstrass curve: decode what was received, multiply by the secret, encode. -/
def wSecret (prof : Profile) (e : Weierstrass.Curve) (k : ℤ) (c : Bool) (buf : List Byte) : R (List Byte) := do
  (← (← Flow.unwrap (e.decode buf)).mul prof (← e.newScalar k)).encode c

/-- The check `G * s == K + A * h` of a Schnorr signature on a Weierstrass curve; the public key `A` and the nonce point `K` are received. -/
def wCheck (prof : Profile) (e : Weierstrass.Curve) (s h : ℤ) (pk nonce : List Byte) : R Bool := do
  let A ← Flow.unwrap (e.decode pk)
  let K ← Flow.unwrap (e.decode nonce)
  (← (← e.getGenerator).mul prof (← e.newScalar s)).eq (← K.add (← A.mul prof (← e.newScalar h)))

/-- The shared secret of a key agreement on a Montgomery curve. -/
def mSecret (prof : Profile) (e : Montgomery.Curve) (k : ℤ) (c : Bool) (buf : List Byte) : R (List Byte) := do
  (← (← Flow.unwrap (e.decode buf)).mul prof (← e.newScalar k)).encode c

/-- The check `G * s == K + A * h` of a Schnorr signature on a Montgomery curve. -/
def mCheck (prof : Profile) (e : Montgomery.Curve) (s h : ℤ) (pk nonce : List Byte) : R Bool := do
  let A ← Flow.unwrap (e.decode pk)
  let K ← Flow.unwrap (e.decode nonce)
  (← (← e.getGenerator).mul prof (← e.newScalar s)).eq (← K.add (← A.mul prof (← e.newScalar h)))

/-- The shared secret of a key agreement on an Edwards curve. -/
def eSecret (prof : Profile) (e : Edwards.Curve) (k : ℤ) (c : Bool) (buf : List Byte) : R (List Byte) := do
  (← (← Flow.unwrap (e.decode buf)).mul prof (← e.newScalar k)).encode c

/-- The check `G * s == K + A * h` of a Schnorr signature (as in EdDSA) on an Edwards curve. -/
def eCheck (prof : Profile) (e : Edwards.Curve) (s h : ℤ) (pk nonce : List Byte) : R Bool := do
  let A ← Flow.unwrap (e.decode pk)
  let K ← Flow.unwrap (e.decode nonce)
  (← (← e.getGenerator).mul prof (← e.newScalar s)).eq (← K.add (← A.mul prof (← e.newScalar h)))

theorem unwrap_ok {ε α : Type} {x : R (Except ε α)} {a : α} (h : x = R.ok (.ok a)) : Flow.unwrap x = R.ok a := by
  rw [h]; rfl

theorem unwrap_eq_ok {ε α : Type} {x : R (Except ε α)} {a : α} : Flow.unwrap x = R.ok a ↔ x = R.ok (.ok a) := by
  refine ⟨fun h => ?_, unwrap_ok⟩
  rcases x with (_ | a') | _
  · cases h
  · simp only [Flow.unwrap, R.bind, R.ok.injEq] at h
    rw [h]
  · cases h

end Props

namespace Props

open Weierstrass WLink RCB

section
variable (p : ℕ) [Fact p.Prime] (e : Curve)

/-- C105, Weierstrass, which strings are read: on a curve without points of order two `decode` accepts exactly the octet strings of SEC 1 of the
affine points of the curve, and returns that point. -/
theorem _root_.Redox.Props.C105_weierstrass_decode (he : WCurve p e) (h2 : NoTwoTorsion p e) (hs : p % 4 = 3 ∨ p % 8 = 5) (buf : List Byte) :
    (∀ P, e.decode buf = R.ok (.ok P) → ∃ x y hn c, IsSec1 e.f.sizeBytes x y c buf ∧
      WDenotes p e P (WeierstrassCurve.Affine.Point.some x y hn)) ∧
    (∀ x y hn c, IsSec1 e.f.sizeBytes x y c buf → ∃ P, e.decode buf = R.ok (.ok P) ∧
      WDenotes p e P (WeierstrassCurve.Affine.Point.some x y hn)) := by
  have key : ∀ P, e.decode buf = R.ok (.ok P) → ∃ x y hn c, IsSec1 e.f.sizeBytes x y c buf ∧
      WDenotes p e P (WeierstrassCurve.Affine.Point.some x y hn) := by
    intro P h
    obtain ⟨hPe, -, A, hA0, hA⟩ := (C29_decode_partial p e he buf).1 P h
    have henc := C30_decode p e he hs h2 buf P h
    cases A with
    | zero => exact absurd rfl hA0
    | some x y hn =>
      have hA' := hA
      obtain ⟨-, hcx, hcy, hcz, hz, hx, hy⟩ := hA'
      obtain ⟨bs, h1, h2⟩ := C98_weierstrass_encode p e he P hPe hcx hcy hcz x y hz hx hy (buf.length == e.f.sizeBytes + 1)
      rw [henc, R.ok.injEq] at h1
      exact ⟨x, y, hn, _, by rw [← h1] at h2; exact h2, hA⟩
  refine ⟨key, fun x y hn c h => ?_⟩
  have hon : y ^ 2 = x ^ 3 + val p e.a * x + val p e.b := by
    have := (WeierstrassCurve.Affine.equation_iff _ _).1 hn.1
    simpa [wGroup] using this
  obtain ⟨Q, hQ, -, hx, hy, hz⟩ := C98_weierstrass_decode p e he hs x y hon c buf h
  obtain ⟨x', y', hn', c', -, hd⟩ := key Q hQ
  have hd' := hd
  obtain ⟨-, hcx, hcy, hcz, hz0, hx', hy'⟩ := hd'
  have hvz : val p Q.c.z = 1 := by simp [val, hz]
  have hvx : val p Q.c.x = x := by simp [val, hx]
  have hvy : val p Q.c.y = y := by simp [val, hy]
  rw [hvz, mul_one, hvx] at hx'
  rw [hvz, mul_one, hvy] at hy'
  subst hx' hy'
  exact ⟨Q, hQ, hd⟩

theorem wEncode_writes (he : WCurve p e) {P : Point} {A : (wGroup p e).Point} (hP : WDenotes p e P A) (c : Bool) :
    ∃ bs, P.encode c = R.ok bs ∧ WWrites e.f.sizeBytes A c bs := by
  cases A with
  | zero =>
    obtain ⟨X, Y, Z, rfl, hX, hY, hZ⟩ := denotes_iff.1 hP
    subst hX hZ
    refine ⟨_, encode_pt he _ _ _ _, ?_⟩
    refine ⟨_, _, fixedBE_len he (0 : ZMod p), fixedBE_len he (0 : ZMod p), ?_, ?_, ?_⟩
    · rw [Props.beValue_eq, fromBE_fixed0]
    · rw [Props.beValue_eq, fromBE_fixed0]
    · rw [inv_zero, mul_zero, mul_zero, signTag_eq]
  | some x y hn =>
    obtain ⟨hPe, hcx, hcy, hcz, hz, hx, hy⟩ := hP
    exact C98_weierstrass_encode p e he P hPe hcx hcy hcz x y hz hx hy c

theorem wMul_reduced (h : WValid p e) (prof : Profile) {P : Point} {A : (wGroup p e).Point} (hP : WDenotes p e P A) (k : ℤ)
    (h0 : ¬ (e.getOrder : ℤ) ∣ k ∨ prof = .release) :
    ∃ S, P.mul prof ⟨k % e.r, e.r⟩ = R.ok S ∧ WDenotes p e S ((k % (e.getOrder : ℤ)) • A) := by
  have hpos : (0 : ℤ) < e.r := by exact_mod_cast h.order_prime.pos
  exact C25_mul_partial p e h.curve h.complete h.order_bits prof P A hP ⟨k % e.r, e.r⟩
    ⟨rfl, Int.emod_nonneg _ hpos.ne', Int.emod_lt_of_pos _ hpos⟩ (h0.imp (fun h' h'' => h' (Int.dvd_of_emod_eq_zero h'')) id)

/-- C105, Weierstrass, key agreement with an untrusted sender: the result is `out` exactly if the received string is an octet string of SEC 1 of a point
of the curve and `out` is what is written for the multiple of that point by the secret reduced modulo the order. -/
theorem _root_.Redox.Props.C105_weierstrass_secret_partial (h : WValid p e) (hs : p % 4 = 3 ∨ p % 8 = 5) (prof : Profile) (k : ℤ)
    (h0 : ¬ (e.getOrder : ℤ) ∣ k ∨ prof = .release) (c : Bool) (buf out : List Byte) :
    wSecret prof e k c buf = R.ok out ↔
      ∃ x y hn cc, IsSec1 e.f.sizeBytes x y cc buf ∧
        WWrites e.f.sizeBytes ((k % (e.getOrder : ℤ)) • (WeierstrassCurve.Affine.Point.some x y hn : (wGroup p e).Point)) c out := by
  have hr1 : 1 ≤ e.r := h.order_prime.one_le
  obtain ⟨d1, d2⟩ := C105_weierstrass_decode p e h.curve h.complete hs buf
  have run : ∀ P A, e.decode buf = R.ok (.ok P) → WDenotes p e P A →
      ∃ bs, wSecret prof e k c buf = R.ok bs ∧ WWrites e.f.sizeBytes ((k % (e.getOrder : ℤ)) • A) c bs := by
    intro P A hP hA
    obtain ⟨S, hS, hd⟩ := wMul_reduced p e h prof hA k h0
    obtain ⟨bs, hb, hw⟩ := wEncode_writes p e h.curve hd c
    exact ⟨bs, by simp only [wSecret, unwrap_ok hP, R.ok_bind, Curve.newScalar, scalar_new_eq e.r hr1, hS, hb], hw⟩
  constructor
  · intro ho
    obtain ⟨P, hP⟩ : ∃ P, e.decode buf = R.ok (.ok P) := by
      rcases hu : Flow.unwrap (e.decode buf) with P | w
      · exact ⟨P, unwrap_eq_ok.1 hu⟩
      · simp only [wSecret, hu, R.panic_bind] at ho
        cases ho
    obtain ⟨x, y, hn, cc, hsec, hd⟩ := d1 P hP
    obtain ⟨bs, hb, hw⟩ := run P _ hP hd
    rw [ho, R.ok.injEq] at hb
    exact ⟨x, y, hn, cc, hsec, hb ▸ hw⟩
  · rintro ⟨x, y, hn, cc, hsec, hw⟩
    obtain ⟨P, hP, hd⟩ := d2 x y hn cc hsec
    obtain ⟨bs, hb, hw'⟩ := run P _ hP hd
    rw [hb, hw'.unique hw]

/-- C105, Weierstrass, signature check on received bytes: it gives the verdict `b` exactly if both strings are octet strings of SEC 1 of points `A` and
`K` of the curve and `b` tells whether `(s mod r) G = K + (h mod r) A`. -/
theorem _root_.Redox.Props.C105_weierstrass_check_partial (h : WValid p e) (hs : p % 4 = 3 ∨ p % 8 = 5) (prof : Profile) (s m : ℤ)
    (h0 : (¬ (e.getOrder : ℤ) ∣ s ∧ ¬ (e.getOrder : ℤ) ∣ m) ∨ prof = .release) (G : Point) (g : (wGroup p e).Point) (hG : e.getGenerator = R.ok G)
    (hg : WDenotes p e G g) (pk nonce : List Byte) (b : Bool) :
    wCheck prof e s m pk nonce = R.ok b ↔
      ∃ x y hn c x' y' hn' c', IsSec1 e.f.sizeBytes x y c pk ∧ IsSec1 e.f.sizeBytes x' y' c' nonce ∧
        (b = true ↔ (s % (e.getOrder : ℤ)) • g = (WeierstrassCurve.Affine.Point.some x' y' hn' : (wGroup p e).Point) +
          (m % (e.getOrder : ℤ)) • (WeierstrassCurve.Affine.Point.some x y hn : (wGroup p e).Point)) := by
  have hr1 : 1 ≤ e.r := h.order_prime.one_le
  obtain ⟨d1, d2⟩ := C105_weierstrass_decode p e h.curve h.complete hs pk
  obtain ⟨d3, d4⟩ := C105_weierstrass_decode p e h.curve h.complete hs nonce
  have run : ∀ P A Q B, e.decode pk = R.ok (.ok P) → WDenotes p e P A → e.decode nonce = R.ok (.ok Q) → WDenotes p e Q B →
      wCheck prof e s m pk nonce = R.ok (decide ((s % (e.getOrder : ℤ)) • g = B + (m % (e.getOrder : ℤ)) • A)) := by
    intro P A Q B hP hA hQ hB
    obtain ⟨S, hS, hdS⟩ := wMul_reduced p e h prof hg s (h0.imp And.left id)
    obtain ⟨M, hM, hdM⟩ := wMul_reduced p e h prof hA m (h0.imp And.right id)
    obtain ⟨V, hV, hdV⟩ := (C23_group_law p e h.curve h.complete Q M _ _ hB hdM).1
    simp only [wCheck, unwrap_ok hP, unwrap_ok hQ, hG, R.ok_bind, Curve.newScalar, scalar_new_eq e.r hr1, hS, hM, hV,
      C27_eq p e _ _ _ _ hdS hdV]
  constructor
  · intro ho
    obtain ⟨P, hP⟩ : ∃ P, e.decode pk = R.ok (.ok P) := by
      rcases hu : Flow.unwrap (e.decode pk) with P | w
      · exact ⟨P, unwrap_eq_ok.1 hu⟩
      · simp only [wCheck, hu, R.panic_bind] at ho
        cases ho
    obtain ⟨Q, hQ⟩ : ∃ Q, e.decode nonce = R.ok (.ok Q) := by
      rcases hu : Flow.unwrap (e.decode nonce) with P | w
      · exact ⟨P, unwrap_eq_ok.1 hu⟩
      · simp only [wCheck, hu, unwrap_ok hP, R.ok_bind, R.panic_bind] at ho
        cases ho
    obtain ⟨x, y, hn, c, h1, h2⟩ := d1 P hP
    obtain ⟨x', y', hn', c', h3, h4⟩ := d3 Q hQ
    rw [run P _ Q _ hP h2 hQ h4, R.ok.injEq] at ho
    exact ⟨x, y, hn, c, x', y', hn', c', h1, h3, by rw [← ho, decide_eq_true_iff]⟩
  · rintro ⟨x, y, hn, c, x', y', hn', c', h1, h3, hb⟩
    obtain ⟨P, hP, h2⟩ := d2 x y hn c h1
    obtain ⟨Q, hQ, h4⟩ := d4 x' y' hn' c' h3
    rw [run P _ Q _ hP h2 hQ h4, R.ok.injEq, Bool.eq_iff_iff, decide_eq_true_iff, hb]

/-- C105, Weierstrass, curves of prime order: if the secret is not a multiple of the order, the result is `out` exactly if the received string is an octet
string of SEC 1 of a point `A` of the curve and `out` is the octet string of SEC 1 of `k A`, which is never the identity. -/
theorem _root_.Redox.Props.C105_weierstrass_prime (h : WValid p e) (hcard : Nat.card (wGroup p e).Point = e.getOrder)
    (hs : p % 4 = 3 ∨ p % 8 = 5) (prof : Profile) (k : ℤ) (h0 : ¬ (e.getOrder : ℤ) ∣ k) (c : Bool) (buf out : List Byte) :
    wSecret prof e k c buf = R.ok out ↔
      ∃ x y hn cc x' y' hn', IsSec1 e.f.sizeBytes x y cc buf ∧
        k • (WeierstrassCurve.Affine.Point.some x y hn : (wGroup p e).Point) = WeierstrassCurve.Affine.Point.some x' y' hn' ∧
        IsSec1 e.f.sizeBytes x' y' c out := by
  rw [C105_weierstrass_secret_partial p e h hs prof k (Or.inl h0)]
  have hkill : ∀ A : (wGroup p e).Point, e.r • A = 0 := fun A => by
    have := card_nsmul_eq_zero' (x := A)
    rwa [hcard] at this
  have hmod : ∀ A : (wGroup p e).Point, (k % (e.getOrder : ℤ)) • A = k • A := fun A => (zsmul_emod e.r A (hkill A) k).symm
  have hne : ∀ x y hn, k • (WeierstrassCurve.Affine.Point.some x y hn : (wGroup p e).Point) ≠ 0 := by
    intro x y hn
    refine Flow.smul_ne ?_ h0
    have hd : addOrderOf (WeierstrassCurve.Affine.Point.some x y hn : (wGroup p e).Point) ∣ e.getOrder :=
      addOrderOf_dvd_of_nsmul_eq_zero (hkill _)
    refine ((Nat.dvd_prime h.order_prime).1 hd).resolve_left fun h1 => ?_
    rw [AddMonoid.addOrderOf_eq_one_iff] at h1
    cases h1
  constructor
  · rintro ⟨x, y, hn, cc, h1, h2⟩
    rw [hmod] at h2
    rcases hA : k • (WeierstrassCurve.Affine.Point.some x y hn : (wGroup p e).Point) with _ | ⟨x', y', hn'⟩
    · exact absurd hA (hne x y hn)
    · rw [hA] at h2
      exact ⟨x, y, hn, cc, x', y', hn', h1, hA, h2⟩
  · rintro ⟨x, y, hn, cc, x', y', hn', h1, hA, h2⟩
    refine ⟨x, y, hn, cc, h1, ?_⟩
    rw [hmod, hA]
    exact h2

/-- C105 is refuted for the zero scalar with overflow checks on: a received signature with `s` a multiple of the order makes the check panic instead of
giving a verdict, whatever well-formed key and nonce point come with it. -/
theorem _root_.Redox.Props.C105_weierstrass_refuted_zero (h : WValid p e) (hs : p % 4 = 3 ∨ p % 8 = 5) (s m : ℤ) (h0 : (e.getOrder : ℤ) ∣ s)
    (pk nonce : List Byte) (x y : ZMod p) (hn : (wGroup p e).Nonsingular x y) (c : Bool) (x' y' : ZMod p) (hn' : (wGroup p e).Nonsingular x' y')
    (c' : Bool) (h1 : IsSec1 e.f.sizeBytes x y c pk) (h2 : IsSec1 e.f.sizeBytes x' y' c' nonce) :
    wCheck .debug e s m pk nonce = R.panic .overflow := by
  obtain ⟨P, hP, -⟩ := (C105_weierstrass_decode p e h.curve h.complete hs pk).2 x y hn c h1
  obtain ⟨Q, hQ, -⟩ := (C105_weierstrass_decode p e h.curve h.complete hs nonce).2 x' y' hn' c' h2
  obtain ⟨G, A, hG, hd, -⟩ := h.generator
  have hz := C25_refuted_zero p e h.curve G hd.1
  have hs0 : s % (e.r : ℤ) = 0 := Int.emod_eq_zero_of_dvd h0
  simp only [wCheck, unwrap_ok hP, unwrap_ok hQ, hG, R.ok_bind, Curve.newScalar, scalar_new_eq e.r h.order_prime.one_le, hs0, hz, R.panic_bind]

/-- C105, the named curves of prime order P256, P384, P521, SECP256K1 and SECP256K1_3ISO. -/
theorem _root_.Redox.Props.C105_named_prime : ∀ t ∈ Inst.primeOrderList, ∃ (_ : Fact t.2.Prime) (e : Curve), t.1 = R.ok e ∧
    ∀ (prof : Profile) (k : ℤ), ¬ (e.getOrder : ℤ) ∣ k → ∀ (c : Bool) (buf out : List Byte),
      (wSecret prof e k c buf = R.ok out ↔
        ∃ x y hn cc x' y' hn', IsSec1 e.f.sizeBytes x y cc buf ∧
          k • (WeierstrassCurve.Affine.Point.some x y hn : (wGroup t.2 e).Point) = WeierstrassCurve.Affine.Point.some x' y' hn' ∧
          IsSec1 e.f.sizeBytes x' y' c out) := by
  have key : ∀ (c : R Curve) (p : ℕ) [Fact p.Prime] (e : Curve), c = R.ok e → WValid p e → 2 * p + 1 < 3 * e.r → (p % 4 = 3 ∨ p % 8 = 5) →
      ∃ (_ : Fact p.Prime) (e : Curve), c = R.ok e ∧
        ∀ (prof : Profile) (k : ℤ), ¬ (e.getOrder : ℤ) ∣ k → ∀ (c : Bool) (buf out : List Byte),
          (wSecret prof e k c buf = R.ok out ↔
            ∃ x y hn cc x' y' hn', IsSec1 e.f.sizeBytes x y cc buf ∧
              k • (WeierstrassCurve.Affine.Point.some x y hn : (wGroup p e).Point) = WeierstrassCurve.Affine.Point.some x' y' hn' ∧
              IsSec1 e.f.sizeBytes x' y' c out) := fun c p _ e hc hv hb hs =>
    ⟨inferInstance, e, hc, C105_weierstrass_prime p e hv (Inst.card_of_valid hv hb) hs⟩
  rw [Inst.primeOrderList, Inst.weierstrassList, Inst.p256_p_eq, Inst.p384_p_eq, Inst.p521_p_eq, Inst.secp256k1_p_eq, Inst.bls_p_eq]
  simp only [List.take, List.forall_mem_cons]
  exact ⟨key _ _ _ Inst.p256_eq Inst.p256_valid (by decide +kernel) (by decide +kernel),
    key _ _ _ Inst.p384_eq Inst.p384_valid (by decide +kernel) (by decide +kernel),
    key _ _ _ Inst.p521_eq Inst.p521_valid (by decide +kernel) (by decide +kernel),
    key _ _ _ Inst.secp256k1_eq Inst.secp256k1_valid (by decide +kernel) (by decide +kernel),
    key _ _ _ Inst.secp256k1_3iso_eq Inst.secp256k1_3iso_valid (by decide +kernel) (by decide +kernel), by simp⟩

end

end Props

namespace Props.Mo

open Montgomery MLink Mont

section
variable (p : ℕ) [Fact p.Prime] (e : Curve)

/-- C105, Montgomery, which strings are read: `decode` accepts exactly the octet strings of SEC 1 of the affine points of the curve and, for the points
with `y = 0`, also the compressed string with the tag `03`; it returns that point. -/
theorem _root_.Redox.Props.C105_montgomery_decode (he : MCurve p e) (hb : val p e.b = 1) (hs : p % 4 = 3 ∨ p % 8 = 5) (buf : List Byte) :
    (∀ P, e.decode buf = R.ok (.ok P) → ∃ x y hn, ReadsAs e.f.sizeBytes x y buf ∧
      MDenotes p e P (WeierstrassCurve.Affine.Point.some x y hn)) ∧
    (∀ x y hn, ReadsAs e.f.sizeBytes x y buf → ∃ P, e.decode buf = R.ok (.ok P) ∧
      MDenotes p e P (WeierstrassCurve.Affine.Point.some x y hn)) := by
  have h1 := one_le_sizeBytes he
  have pos : ∀ xs : List Byte, xs.length = e.f.sizeBytes → ∀ x : ZMod p, beValue xs = x.val → (Big.fromBytesBE xs : ZMod p) = x ∧ Big.fromBytesBE xs < p := by
    intro xs _ x hx
    rw [beValue_eq] at hx
    rw [hx]
    exact ⟨cast_val_nat x, ZMod.val_lt x⟩
  have den : ∀ x y : ZMod p, val p e.b * y ^ 2 = x ^ 3 + val p e.a * x ^ 2 + x →
      ∃ hn, MDenotes p e (pt e x y 1) (WeierstrassCurve.Affine.Point.some x y hn) := by
    intro x y hon
    obtain ⟨A, hA⟩ := exists_rep (a := val p e.a) (x := x) (y := y) (z := 1) (by have := MLink.two_lt_of he; omega) (ea_ne he)
      (by rw [hb] at hon; linear_combination hon) (Or.inr one_ne_zero)
    rcases A with _ | ⟨u, v, hn⟩
    · exact absurd hA.2.2 one_ne_zero
    · obtain ⟨-, hx, hy⟩ := id hA
      rw [mul_one] at hx hy
      subst hx hy
      exact ⟨hn, denotes_iff.2 ⟨_, _, _, rfl, hA⟩⟩
  have vv : ∀ xs : List Byte, Big.fromBytesBE xs < p → beValue xs = (Big.fromBytesBE xs : ZMod p).val := fun xs hx => by
    rw [beValue_eq, ZMod.val_natCast, Nat.mod_eq_of_lt hx]
  constructor
  · intro P h
    by_cases hl1 : buf.length = 1
    · obtain ⟨t, rfl⟩ := List.length_eq_one_iff.1 hl1
      rw [decode_one he t] at h; cases h
    by_cases hl : buf.length = e.f.sizeBytes + 1 ∨ buf.length = 2 * e.f.sizeBytes + 1
    · obtain ⟨t, xs, ys, rfl, hx, hy⟩ := split_buf hl
      by_cases hxp : p ≤ Big.fromBytesBE xs
      · rw [decode_body he t xs ys hx hy, if_pos hxp] at h; cases h
      by_cases h0 : t = 0
      · rw [decode_body he t xs ys hx hy, if_neg hxp, if_pos h0] at h; cases h
      by_cases h4 : t = 4
      · subst h4
        by_cases hye : ys = []
        · rw [decode_body he _ xs ys hx hy, if_neg hxp, if_neg h0, if_pos rfl, if_pos hye] at h; cases h
        have hyl := hy.resolve_left hye
        by_cases hyp : p ≤ Big.fromBytesBE ys
        · rw [decode_body he _ xs ys hx hy, if_neg hxp, if_neg h0, if_pos rfl, if_neg hye, if_pos hyp] at h; cases h
        rw [decode_uncompressed he xs ys hx hyl (by omega) (by omega)] at h
        split_ifs at h with hon
        rw [R.ok.injEq, Except.ok.injEq] at h
        obtain ⟨hn, hd⟩ := den _ _ hon
        exact ⟨_, _, hn, Or.inl ⟨false, xs, ys, hx, hyl, vv xs (by omega), vv ys (by omega), by simp⟩, h ▸ hd⟩
      by_cases ht : t = 2 ∨ t = 3
      · by_cases hye : ys = []
        · subst hye
          obtain ⟨dc1, dc2⟩ := decode_compressed he hs t ht xs hx (by omega)
          rw [List.append_nil] at h ⊢
          by_cases hsq : ∃ y, val p e.b * y ^ 2 = (Big.fromBytesBE xs : ZMod p) ^ 3 + val p e.a * (Big.fromBytesBE xs : ZMod p) ^ 2 +
              (Big.fromBytesBE xs : ZMod p)
          · obtain ⟨y, hon, hsg, hd⟩ := dc2 hsq
            rw [hd, R.ok.injEq, Except.ok.injEq] at h
            obtain ⟨hn, hden⟩ := den _ _ hon
            refine ⟨_, _, hn, ?_, h ▸ hden⟩
            have sec : signTag y = t → ReadsAs e.f.sizeBytes (Big.fromBytesBE xs : ZMod p) y (t :: xs) := fun hst =>
              Or.inl ⟨true, xs, _, hx, fixedBE_len he y, vv xs (by omega), by rw [beValue_eq, fromBE_fixed0], by
                rw [if_pos rfl, ← hst, signTag_eq]⟩
            rcases hsg with hy0 | hst
            · rcases ht with rfl | rfl
              · refine sec ?_
                rw [hy0, signTag_eq, ZMod.val_zero]; rfl
              · exact Or.inr ⟨hy0, xs, hx, vv xs (by omega), rfl⟩
            · exact sec hst
          · rw [dc1 hsq] at h; cases h
        · rw [decode_body he t xs ys hx hy, if_neg hxp, if_neg h0, if_neg h4, if_pos ht, if_pos hye] at h; cases h
      · rw [decode_body he t xs ys hx hy, if_neg hxp, if_neg h0, if_neg h4, if_neg ht] at h; cases h
    · rw [decode_wrongSize he buf hl1 (by tauto) (by tauto)] at h; cases h
  · intro x y hn h
    have hon : val p e.b * y ^ 2 = x ^ 3 + val p e.a * x ^ 2 + x := by
      rw [hb, one_mul]
      exact ((nonsingular_iff _ x y).1 hn).1
    obtain ⟨hn', hd⟩ := den x y hon
    rcases h with ⟨c, h⟩ | ⟨rfl, xs, lx, vx, rfl⟩
    · obtain ⟨xs, ys, lx, ly, vx, vy, rfl⟩ := id h
      obtain ⟨Q, hQ, hQe, hQx, hQy, hQz⟩ := C98_montgomery_decode p e he hs x y hon c _ h
      obtain ⟨x', y', hnew⟩ := decode_newPoint he hQ
      rw [newPoint_pt he] at hnew
      split_ifs at hnew with h0
      rw [R.ok.injEq] at hnew
      subst hnew
      simp only [pt, el_n, cast_eq_val, Nat.cast_inj] at hQx hQy
      rw [ZMod.val_injective p hQx, ZMod.val_injective p hQy] at hQ
      exact ⟨_, hQ, hd⟩
    · obtain ⟨hux, hxp⟩ := pos xs lx x vx
      obtain ⟨-, dc2⟩ := decode_compressed he hs 3 (Or.inr rfl) xs lx hxp
      rw [hux] at dc2
      obtain ⟨y', hon', -, hdec⟩ := dc2 ⟨0, hon⟩
      have : y' = 0 := by
        rw [← hon, hb] at hon'
        simpa using hon'
      rw [this] at hdec
      exact ⟨_, hdec, hd⟩

theorem mEncode_writes (he : MCurve p e) {P : Point} {A : (mGroup p e).Point} (hP : MDenotes p e P A) (c : Bool) :
    ∃ bs, P.encode c = R.ok bs ∧ WWrites e.f.sizeBytes A c bs := by
  cases A with
  | zero =>
    obtain ⟨X, Y, Z, rfl, hX, hY, hZ⟩ := denotes_iff.1 hP
    subst hX hZ
    refine ⟨_, encode_pt he _ _ _ _, ?_⟩
    refine ⟨_, _, fixedBE_len he (0 : ZMod p), fixedBE_len he (0 : ZMod p), ?_, ?_, ?_⟩
    · rw [Props.beValue_eq, fromBE_fixed0]
    · rw [Props.beValue_eq, fromBE_fixed0]
    · rw [inv_zero, mul_zero, mul_zero, signTag_eq]
  | some x y hn =>
    obtain ⟨hPe, hcx, hcy, hcz, hz, hx, hy⟩ := hP
    exact C98_montgomery_encode p e he P hPe hcx hcy hcz x y hz hx hy c

theorem mMul_reduced (h : MValid p e) (prof : Profile) {P : Point} {A : (mGroup p e).Point} (hP : MDenotes p e P A) (k : ℤ)
    (h0 : ¬ (e.getOrder : ℤ) ∣ k ∨ prof = .release) :
    ∃ S, P.mul prof ⟨k % e.r, e.r⟩ = R.ok S ∧ MDenotes p e S ((k % (e.getOrder : ℤ)) • A) := by
  have hpos : (0 : ℤ) < e.r := by exact_mod_cast h.order_prime.pos
  exact C33_mul_partial p e h.curve h.b_one h.complete h.order_bits prof P A hP ⟨k % e.r, e.r⟩
    ⟨rfl, Int.emod_nonneg _ hpos.ne', Int.emod_lt_of_pos _ hpos⟩ (h0.imp (fun h' h'' => h' (Int.dvd_of_emod_eq_zero h'')) id)

/-- C105, Montgomery, key agreement with an untrusted sender: the result is `out` exactly if the received string is read as a point of the
curve and `out` is what is written for the multiple of that point by the secret reduced modulo the order. -/
theorem _root_.Redox.Props.C105_montgomery_secret_partial (h : MValid p e) (hs : p % 4 = 3 ∨ p % 8 = 5) (prof : Profile) (k : ℤ)
    (h0 : ¬ (e.getOrder : ℤ) ∣ k ∨ prof = .release) (c : Bool) (buf out : List Byte) :
    mSecret prof e k c buf = R.ok out ↔
      ∃ x y hn, ReadsAs e.f.sizeBytes x y buf ∧
        WWrites e.f.sizeBytes ((k % (e.getOrder : ℤ)) • (WeierstrassCurve.Affine.Point.some x y hn : (mGroup p e).Point)) c out := by
  have hr1 : 1 ≤ e.r := h.order_prime.one_le
  obtain ⟨d1, d2⟩ := C105_montgomery_decode p e h.curve h.b_one hs buf
  have run : ∀ P A, e.decode buf = R.ok (.ok P) → MDenotes p e P A →
      ∃ bs, mSecret prof e k c buf = R.ok bs ∧ WWrites e.f.sizeBytes ((k % (e.getOrder : ℤ)) • A) c bs := by
    intro P A hP hA
    obtain ⟨S, hS, hd⟩ := mMul_reduced p e h prof hA k h0
    obtain ⟨bs, hb, hw⟩ := mEncode_writes p e h.curve hd c
    exact ⟨bs, by simp only [mSecret, unwrap_ok hP, R.ok_bind, Curve.newScalar, scalar_new_eq e.r hr1, hS, hb], hw⟩
  constructor
  · intro ho
    obtain ⟨P, hP⟩ : ∃ P, e.decode buf = R.ok (.ok P) := by
      rcases hu : Flow.unwrap (e.decode buf) with P | w
      · exact ⟨P, unwrap_eq_ok.1 hu⟩
      · simp only [mSecret, hu, R.panic_bind] at ho
        cases ho
    obtain ⟨x, y, hn, hsec, hd⟩ := d1 P hP
    obtain ⟨bs, hb, hw⟩ := run P _ hP hd
    rw [ho, R.ok.injEq] at hb
    exact ⟨x, y, hn, hsec, hb ▸ hw⟩
  · rintro ⟨x, y, hn, hsec, hw⟩
    obtain ⟨P, hP, hd⟩ := d2 x y hn hsec
    obtain ⟨bs, hb, hw'⟩ := run P _ hP hd
    rw [hb, hw'.unique hw]

/-- C105, Montgomery, signature check on received bytes: it gives the verdict `b` exactly if both strings are read as points `A` and `K` of the
curve and `b` tells whether `(s mod r) G = K + (h mod r) A`. -/
theorem _root_.Redox.Props.C105_montgomery_check_partial (h : MValid p e) (hs : p % 4 = 3 ∨ p % 8 = 5) (prof : Profile) (s m : ℤ)
    (h0 : (¬ (e.getOrder : ℤ) ∣ s ∧ ¬ (e.getOrder : ℤ) ∣ m) ∨ prof = .release) (G : Point) (g : (mGroup p e).Point) (hG : e.getGenerator = R.ok G)
    (hg : MDenotes p e G g) (pk nonce : List Byte) (b : Bool) :
    mCheck prof e s m pk nonce = R.ok b ↔
      ∃ x y hn x' y' hn', ReadsAs e.f.sizeBytes x y pk ∧ ReadsAs e.f.sizeBytes x' y' nonce ∧
        (b = true ↔ (s % (e.getOrder : ℤ)) • g = (WeierstrassCurve.Affine.Point.some x' y' hn' : (mGroup p e).Point) +
          (m % (e.getOrder : ℤ)) • (WeierstrassCurve.Affine.Point.some x y hn : (mGroup p e).Point)) := by
  have hr1 : 1 ≤ e.r := h.order_prime.one_le
  obtain ⟨d1, d2⟩ := C105_montgomery_decode p e h.curve h.b_one hs pk
  obtain ⟨d3, d4⟩ := C105_montgomery_decode p e h.curve h.b_one hs nonce
  have run : ∀ P A Q B, e.decode pk = R.ok (.ok P) → MDenotes p e P A → e.decode nonce = R.ok (.ok Q) → MDenotes p e Q B →
      mCheck prof e s m pk nonce = R.ok (decide ((s % (e.getOrder : ℤ)) • g = B + (m % (e.getOrder : ℤ)) • A)) := by
    intro P A Q B hP hA hQ hB
    obtain ⟨S, hS, hdS⟩ := mMul_reduced p e h prof hg s (h0.imp And.left id)
    obtain ⟨M, hM, hdM⟩ := mMul_reduced p e h prof hA m (h0.imp And.right id)
    obtain ⟨V, hV, hdV⟩ := (C32_group_law_partial p e h.curve h.b_one h.complete Q M _ _ hB hdM).1
    simp only [mCheck, unwrap_ok hP, unwrap_ok hQ, hG, R.ok_bind, Curve.newScalar, scalar_new_eq e.r hr1, hS, hM, hV,
      (C32_eq p e _ _ _ _ hdS hdV).1]
  constructor
  · intro ho
    obtain ⟨P, hP⟩ : ∃ P, e.decode pk = R.ok (.ok P) := by
      rcases hu : Flow.unwrap (e.decode pk) with P | w
      · exact ⟨P, unwrap_eq_ok.1 hu⟩
      · simp only [mCheck, hu, R.panic_bind] at ho
        cases ho
    obtain ⟨Q, hQ⟩ : ∃ Q, e.decode nonce = R.ok (.ok Q) := by
      rcases hu : Flow.unwrap (e.decode nonce) with P | w
      · exact ⟨P, unwrap_eq_ok.1 hu⟩
      · simp only [mCheck, hu, unwrap_ok hP, R.ok_bind, R.panic_bind] at ho
        cases ho
    obtain ⟨x, y, hn, h1, h2⟩ := d1 P hP
    obtain ⟨x', y', hn', h3, h4⟩ := d3 Q hQ
    rw [run P _ Q _ hP h2 hQ h4, R.ok.injEq] at ho
    exact ⟨x, y, hn, x', y', hn', h1, h3, by rw [← ho, decide_eq_true_iff]⟩
  · rintro ⟨x, y, hn, x', y', hn', h1, h3, hb⟩
    obtain ⟨P, hP, h2⟩ := d2 x y hn h1
    obtain ⟨Q, hQ, h4⟩ := d4 x' y' hn' h3
    rw [run P _ Q _ hP h2 hQ h4, R.ok.injEq, Bool.eq_iff_iff, decide_eq_true_iff, hb]

/-- C105 is refuted for the zero scalar with overflow checks on. -/
theorem _root_.Redox.Props.C105_montgomery_refuted_zero (h : MValid p e) (hs : p % 4 = 3 ∨ p % 8 = 5) (s m : ℤ) (h0 : (e.getOrder : ℤ) ∣ s)
    (pk nonce : List Byte) (x y : ZMod p) (hn : (mGroup p e).Nonsingular x y) (x' y' : ZMod p) (hn' : (mGroup p e).Nonsingular x' y')
    (h1 : ReadsAs e.f.sizeBytes x y pk) (h2 : ReadsAs e.f.sizeBytes x' y' nonce) :
    mCheck .debug e s m pk nonce = R.panic .overflow := by
  obtain ⟨P, hP, -⟩ := (C105_montgomery_decode p e h.curve h.b_one hs pk).2 x y hn h1
  obtain ⟨Q, hQ, -⟩ := (C105_montgomery_decode p e h.curve h.b_one hs nonce).2 x' y' hn' h2
  obtain ⟨G, A, hG, hd, -⟩ := h.generator
  have hz := C33_refuted_zero p e h.curve G hd.1
  have hs0 : s % (e.r : ℤ) = 0 := Int.emod_eq_zero_of_dvd h0
  simp only [mCheck, unwrap_ok hP, unwrap_ok hQ, hG, R.ok_bind, Curve.newScalar, scalar_new_eq e.r h.order_prime.one_le, hs0, hz, R.panic_bind]

end

end Props.Mo

namespace Props.Ed

open Edwards ELink Edw

section
variable (p : ℕ) [Fact p.Prime] (e : Curve)

theorem rfc_unique {A : eGroup p e} {bs bs' : List Byte} (h : IsRfc8032 A bs) (h' : IsRfc8032 A bs') : bs = bs' := by
  apply Big.fromBytesLE_inj (h.1.trans h'.1.symm)
  rw [← leValue_eq, ← leValue_eq, h.2, h'.2, h.1, h'.1]

/-- C105, Edwards, which strings are read: `decode` accepts exactly the encodings of RFC 8032 of the points of the curve, and returns that point. -/
theorem _root_.Redox.Props.C105_edwards_decode [he : ECurve p e] (hs : p % 4 = 3 ∨ p % 8 = 5) (buf : List Byte) :
    (∀ P, e.decode buf = R.ok (.ok P) → ∃ A : eGroup p e, IsRfc8032 A buf ∧ EDenotes p e P A) ∧
    (∀ A : eGroup p e, IsRfc8032 A buf → ∃ P, e.decode buf = R.ok (.ok P) ∧ EDenotes p e P A) := by
  constructor
  · intro P h
    obtain ⟨A, hA⟩ := ((C40_decode_partial p e he.params buf).1 P h).2
    obtain ⟨bs, Q, h1, h2, h3, -⟩ := C39_roundtrip p e hs P A hA true
    rw [C39_canonical p e hs buf P h true, R.ok.injEq] at h1
    subst h1
    exact ⟨A, ⟨h2, h3⟩, hA⟩
  · intro A h
    obtain ⟨bs, Q, h1, h2, h3, h4, h5, -⟩ := C39_roundtrip p e hs _ A (denotes_affine A) true
    rw [rfc_unique p e h ⟨h2, h3⟩]
    exact ⟨Q, h4, h5⟩

theorem eMul_reduced (h : EValid p e) (prof : Profile) {P : Point} {A : eGroup p e} (hP : EDenotes p e P A) (k : ℤ)
    (h0 : ¬ (e.getOrder : ℤ) ∣ k ∨ prof = .release) :
    haveI := h.curve
    ∃ S, P.mul prof ⟨k % e.r, e.r⟩ = R.ok S ∧ EDenotes p e S ((k % (e.getOrder : ℤ)) • A) := by
  have := h.curve
  have hpos : (0 : ℤ) < e.r := by exact_mod_cast h.order_prime.pos
  exact C37_mul_partial p e h.order_bits prof P A hP ⟨k % e.r, e.r⟩
    ⟨rfl, Int.emod_nonneg _ hpos.ne', Int.emod_lt_of_pos _ hpos⟩ (h0.imp (fun h' h'' => h' (Int.dvd_of_emod_eq_zero h'')) id)

/-- C105, Edwards, key agreement with an untrusted sender: the result is `out` exactly if the received string is the encoding of RFC 8032 of a point of
the curve and `out` is the encoding of the multiple of that point by the secret reduced modulo the order. -/
theorem _root_.Redox.Props.C105_edwards_secret_partial (h : EValid p e) (hs : p % 4 = 3 ∨ p % 8 = 5) (prof : Profile) (k : ℤ)
    (h0 : ¬ (e.getOrder : ℤ) ∣ k ∨ prof = .release) (c : Bool) (buf out : List Byte) :
    haveI := h.curve
    eSecret prof e k c buf = R.ok out ↔
      ∃ A : eGroup p e, IsRfc8032 A buf ∧ IsRfc8032 ((k % (e.getOrder : ℤ)) • A) out := by
  have := h.curve
  have hr1 : 1 ≤ e.r := h.order_prime.one_le
  obtain ⟨d1, d2⟩ := C105_edwards_decode p e hs buf
  have run : ∀ P A, e.decode buf = R.ok (.ok P) → EDenotes p e P A →
      ∃ bs, eSecret prof e k c buf = R.ok bs ∧ IsRfc8032 ((k % (e.getOrder : ℤ)) • A) bs := by
    intro P A hP hA
    obtain ⟨S, hS, hd⟩ := eMul_reduced p e h prof hA k h0
    obtain ⟨bs, Q, hb, hl, hv, -⟩ := C39_roundtrip p e hs S _ hd c
    exact ⟨bs, by simp only [eSecret, unwrap_ok hP, R.ok_bind, Curve.newScalar, scalar_new_eq e.r hr1, hS, hb], hl, hv⟩
  constructor
  · intro ho
    obtain ⟨P, hP⟩ : ∃ P, e.decode buf = R.ok (.ok P) := by
      rcases hu : Flow.unwrap (e.decode buf) with P | w
      · exact ⟨P, unwrap_eq_ok.1 hu⟩
      · simp only [eSecret, hu, R.panic_bind] at ho
        cases ho
    obtain ⟨A, hsec, hd⟩ := d1 P hP
    obtain ⟨bs, hb, hw⟩ := run P _ hP hd
    rw [ho, R.ok.injEq] at hb
    exact ⟨A, hsec, hb ▸ hw⟩
  · rintro ⟨A, hsec, hw⟩
    obtain ⟨P, hP, hd⟩ := d2 A hsec
    obtain ⟨bs, hb, hw'⟩ := run P _ hP hd
    rw [hb, rfc_unique p e hw' hw]

/-- C105, Edwards, signature check on received bytes: it gives the verdict `b` exactly if both strings are encodings of RFC 8032 of points `A` and `K` of
the curve and `b` tells whether `(s mod r) G = K + (h mod r) A`. -/
theorem _root_.Redox.Props.C105_edwards_check_partial (h : EValid p e) (hs : p % 4 = 3 ∨ p % 8 = 5) (prof : Profile) (s m : ℤ)
    (h0 : (¬ (e.getOrder : ℤ) ∣ s ∧ ¬ (e.getOrder : ℤ) ∣ m) ∨ prof = .release) (G : Point) (g : eGroup p e) (hG : e.getGenerator = R.ok G)
    (hg : EDenotes p e G g) (pk nonce : List Byte) (b : Bool) :
    haveI := h.curve
    eCheck prof e s m pk nonce = R.ok b ↔
      ∃ A K : eGroup p e, IsRfc8032 A pk ∧ IsRfc8032 K nonce ∧
        (b = true ↔ (s % (e.getOrder : ℤ)) • g = K + (m % (e.getOrder : ℤ)) • A) := by
  have := h.curve
  have hr1 : 1 ≤ e.r := h.order_prime.one_le
  obtain ⟨d1, d2⟩ := C105_edwards_decode p e hs pk
  obtain ⟨d3, d4⟩ := C105_edwards_decode p e hs nonce
  have run : ∀ P A Q B, e.decode pk = R.ok (.ok P) → EDenotes p e P A → e.decode nonce = R.ok (.ok Q) → EDenotes p e Q B →
      eCheck prof e s m pk nonce = R.ok (decide ((s % (e.getOrder : ℤ)) • g = B + (m % (e.getOrder : ℤ)) • A)) := by
    intro P A Q B hP hA hQ hB
    obtain ⟨S, hS, hdS⟩ := eMul_reduced p e h prof hg s (h0.imp And.left id)
    obtain ⟨M, hM, hdM⟩ := eMul_reduced p e h prof hA m (h0.imp And.right id)
    obtain ⟨V, hV, hdV⟩ := (C36_group_law p e Q M _ _ hB hdM).1
    simp only [eCheck, unwrap_ok hP, unwrap_ok hQ, hG, R.ok_bind, Curve.newScalar, scalar_new_eq e.r hr1, hS, hM, hV,
      C36_eq p e _ _ _ _ hdS hdV]
  constructor
  · intro ho
    obtain ⟨P, hP⟩ : ∃ P, e.decode pk = R.ok (.ok P) := by
      rcases hu : Flow.unwrap (e.decode pk) with P | w
      · exact ⟨P, unwrap_eq_ok.1 hu⟩
      · simp only [eCheck, hu, R.panic_bind] at ho
        cases ho
    obtain ⟨Q, hQ⟩ : ∃ Q, e.decode nonce = R.ok (.ok Q) := by
      rcases hu : Flow.unwrap (e.decode nonce) with P | w
      · exact ⟨P, unwrap_eq_ok.1 hu⟩
      · simp only [eCheck, hu, unwrap_ok hP, R.ok_bind, R.panic_bind] at ho
        cases ho
    obtain ⟨A, h1, h2⟩ := d1 P hP
    obtain ⟨K, h3, h4⟩ := d3 Q hQ
    rw [run P _ Q _ hP h2 hQ h4, R.ok.injEq] at ho
    exact ⟨A, K, h1, h3, by rw [← ho, decide_eq_true_iff]⟩
  · rintro ⟨A, K, h1, h3, hb⟩
    obtain ⟨P, hP, h2⟩ := d2 A h1
    obtain ⟨Q, hQ, h4⟩ := d4 K h3
    rw [run P _ Q _ hP h2 hQ h4, R.ok.injEq, Bool.eq_iff_iff, decide_eq_true_iff, hb]

/-- C105 is refuted for the zero scalar with overflow checks on. -/
theorem _root_.Redox.Props.C105_edwards_refuted_zero (h : EValid p e) (hs : p % 4 = 3 ∨ p % 8 = 5) (s m : ℤ) (h0 : (e.getOrder : ℤ) ∣ s)
    (pk nonce : List Byte) (A K : eGroup p e) (h1 : IsRfc8032 A pk) (h2 : IsRfc8032 K nonce) :
    eCheck .debug e s m pk nonce = R.panic .overflow := by
  have := h.curve
  obtain ⟨P, hP, -⟩ := (C105_edwards_decode p e hs pk).2 A h1
  obtain ⟨Q, hQ, -⟩ := (C105_edwards_decode p e hs nonce).2 K h2
  obtain ⟨G, g, hG, hd, -⟩ := h.generator
  have hz := C37_refuted_zero p e h.curve.params G hd.1
  have hs0 : s % (e.r : ℤ) = 0 := Int.emod_eq_zero_of_dvd h0
  simp only [eCheck, unwrap_ok hP, unwrap_ok hQ, hG, R.ok_bind, Curve.newScalar, scalar_new_eq e.r h.order_prime.one_le, hs0, hz, R.panic_bind]

end

end Props.Ed

end Redox
