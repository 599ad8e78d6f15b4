import Verif.Props.InstanceProps
import Verif.Proofs.CofLink

/-! # Orders, cofactors and subgroups of the built-in curves (C58, C59) -/

set_option maxRecDepth 100000

namespace Redox.Props.Inst

open Redox.Spec Redox.Inst Redox.CofLink

/-! ## Numbers of points -/

section generic
variable {p : ℕ} [Fact p.Prime]

theorem m_finite {e : Montgomery.Curve} (hc : MCurve p e) : Finite (mGroup p e).Point :=
  Count.finite_points hc.odd _ rfl rfl

theorem m_order {e : Montgomery.Curve} (hv : MValid p e) (x y n : ℕ) (hx : x < p) (hy : y < p) (hn : 2 ^ (n + 1) < e.r)
    (h1 : mTors e (fe p x) (fe p y) (2 ^ (n + 1)) = R.ok true) (h0 : mTors e (fe p x) (fe p y) (2 ^ n) = R.ok false) :
    ∃ B : (mGroup p e).Point, addOrderOf B = 2 ^ (n + 1) := by
  have hn' : 2 ^ n < e.r := lt_of_le_of_lt (Nat.pow_le_pow_right (by norm_num) (by omega)) hn
  obtain ⟨hh, e1⟩ := mTors_spec hv (canon_fe hx) (canon_fe hy) hn h1
  obtain ⟨_, e0⟩ := mTors_spec hv (canon_fe hx) (canon_fe hy) hn' h0
  exact ⟨_, Cof.order_pow_two (e1.2 rfl) fun h => by simpa using e0.1 h⟩

theorem e_order {e : Edwards.Curve} (hv : EValid p e) [ECurve p e] (x y n : ℕ) (hx : x < p) (hy : y < p)
    (hn : 2 ^ (n + 1) < e.r) (h1 : eTors e (fe p x) (fe p y) (2 ^ (n + 1)) = R.ok true)
    (h0 : eTors e (fe p x) (fe p y) (2 ^ n) = R.ok false) :
    ∃ B : eGroup p e, addOrderOf B = 2 ^ (n + 1) := by
  have hn' : 2 ^ n < e.r := lt_of_le_of_lt (Nat.pow_le_pow_right (by norm_num) (by omega)) hn
  obtain ⟨hh, e1⟩ := eTors_spec hv (canon_fe hx) (canon_fe hy) hn h1
  obtain ⟨_, e0⟩ := eTors_spec hv (canon_fe hx) (canon_fe hy) hn' h0
  exact ⟨_, Cof.order_pow_two (e1.2 rfl) fun h => by simpa using e0.1 h⟩

theorem prime_coprime {r : ℕ} (hr : r.Prime) {n : ℕ} (h : r ≠ 2) : Nat.Coprime r (2 ^ n) :=
  Nat.Coprime.pow_right n ((Nat.coprime_primes hr Nat.prime_two).2 h)

end generic

theorem card_curve25519 : Nat.card (mGroup curve25519_p curve25519).Point = curve25519.r * 8 := by
  haveI := m_finite curve25519_valid.curve
  obtain ⟨-, A, -, -, hA⟩ := curve25519_valid.generator
  obtain ⟨B, hB⟩ := m_order curve25519_valid 325606250916557431795983626356110631294008115727848805560023387167927233504
    25869741026945134960544184956460972567356779614910045322022475500191642319642 2 (by decide +kernel) (by decide +kernel)
    (by decide +kernel) (by decide +kernel) (by decide +kernel)
  exact Cof.card_of_orders hA hB (prime_coprime (n := 3) curve25519_r_prime (by decide +kernel))
    (Count.card_le curve25519_valid.curve.odd _ rfl rfl) (by decide +kernel)

theorem card_curve448 : Nat.card (mGroup curve448_p curve448).Point = curve448.r * 4 := by
  haveI := m_finite curve448_valid.curve
  obtain ⟨-, A, -, -, hA⟩ := curve448_valid.generator
  obtain ⟨B, hB⟩ := m_order curve448_valid
    726838724295606890549323807888004534353641360687318060281490199180612328166730772686396383698676545930088884461843637361053498018365438
    197888467295464439538354009753858038256835152591059802148199779196087404232002515713604263127793030747855424464185691766453844835192428
    1 (by decide +kernel) (by decide +kernel)
    (by decide +kernel) (by decide +kernel) (by decide +kernel)
  refine Cof.card_of_orders_four hA hB (prime_coprime (n := 2) curve448_r_prime (by decide +kernel))
    (Count.card_le curve448_valid.curve.odd _ rfl rfl) (by decide +kernel) ?_
  have h2 : 2 < curve448_p := by decide +kernel
  have ns : ∀ n : ℕ, (Big.powMod n (curve448_p / 2) curve448_p == curve448_p - 1) = true → ¬ IsSquare (n : ZMod curve448_p) :=
    fun n h => NoRoot.not_isSquare_of_pow _ (by simpa using h) h2
  have ha : val curve448_p curve448.a = ((156326 : ℕ) : ZMod curve448_p) := by rfl
  have hm1 : ((curve448_p - 1 : ℕ) : ZMod curve448_p) = -1 := by
    rw [Nat.cast_sub (by omega), ZMod.natCast_self]; simp
  refine Cof.mont_not_eight_dvd ?_ ?_ ?_ ?_
  · intro h0
    have : ((2 : ℕ) : ZMod curve448_p) = 0 := by exact_mod_cast h0
    rw [ZMod.natCast_eq_zero_iff] at this
    have := Nat.le_of_dvd (by norm_num) this
    omega
  · rw [← hm1]; exact ns _ (by decide +kernel)
  · rw [ha]
    have := ns (156326 + 2) (by decide +kernel)
    exact_mod_cast this
  · rw [ha]
    have := ns (156326 ^ 2 - 4) (by decide +kernel)
    rw [Nat.cast_sub (by norm_num)] at this
    exact_mod_cast this

theorem card_edwards25519 [ECurve curve25519_p edwards25519] :
    Nat.card (eGroup curve25519_p edwards25519) = edwards25519.r * 8 := by
  have hodd := edwards25519_valid.curve.params.odd
  haveI := Cof.finiteE (a := val curve25519_p edwards25519.a) (d := val curve25519_p edwards25519.d) hodd
  obtain ⟨-, A, -, -, hA⟩ := edwards25519_valid.generator
  obtain ⟨B, hB⟩ := e_order edwards25519_valid 14399317868200118260347934320527232580618823971194345261214217575416788799818
    2707385501144840649318225287225658788936804267575313519463743609750303402022 2 (by decide +kernel) (by decide +kernel)
    (by decide +kernel) (by decide +kernel) (by decide +kernel)
  exact Cof.card_of_orders hA hB (prime_coprime (n := 3) curve25519_r_prime (by decide +kernel))
    (Cof.card_leE hodd) (by decide +kernel)

theorem card_edwards448 [ECurve curve448_p edwards448] :
    Nat.card (eGroup curve448_p edwards448) = edwards448.r * 4 := by
  have hodd := edwards448_valid.curve.params.odd
  haveI := Cof.finiteE (a := val curve448_p edwards448.a) (d := val curve448_p edwards448.d) hodd
  obtain ⟨-, A, -, -, hA⟩ := edwards448_valid.generator
  obtain ⟨B, hB⟩ := e_order edwards448_valid 1 0 1 (by decide +kernel) (by decide +kernel)
    (by decide +kernel) (by decide +kernel) (by decide +kernel)
  refine Cof.card_of_orders_four hA hB (prime_coprime (n := 2) curve448_r_prime (by decide +kernel))
    (Cof.card_leE hodd) (by decide +kernel) ?_
  have h2 : 2 < curve448_p := by decide +kernel
  refine Cof.edw_not_eight_dvd hodd ?_ ?_
  · have : edwards448.a.n = 1 := by decide +kernel
    simp [val, this]
  · have hd : val curve448_p edwards448.d = -((39081 : ℕ) : ZMod curve448_p) := by
      have : edwards448.d.n = (curve448_p : ℤ) - 39081 := by decide +kernel
      rw [val, this]
      push_cast
      rw [ZMod.natCast_self]
      ring
    rw [hd]
    have : ¬ IsSquare ((39082 : ℕ) : ZMod curve448_p) :=
      NoRoot.not_isSquare_of_pow _ (by decide +kernel) h2
    have e : (1 : ZMod curve448_p) - -((39081 : ℕ) : ZMod curve448_p) = ((39082 : ℕ) : ZMod curve448_p) := by push_cast; ring
    rwa [e]

/-! ## BLS12-381 G1 -/

/-- The prime factors of the cofactor other than 3. -/
def blsQ : List ℕ := [11, 10177, 859267, 52437899]

/-- The number of points of BLS12-381 G1. -/
def blsN : ℕ := (blsX + 1) ^ 2 / 3 * blsR

def blsBeta : ℕ := 793479390729215512621379701633421447060886740281060493010456487427281649075476305620758731620350

theorem bls_beta : ((blsBeta : ZMod bls12381g1_p)) ^ 2 + blsBeta + 1 = 0 := by
  have : ((blsBeta ^ 2 + blsBeta + 1 : ℕ) : ZMod bls12381g1_p) = 0 := by
    rw [ZMod.natCast_eq_zero_iff]
    exact Nat.dvd_of_mod_eq_zero (by decide +kernel)
  exact_mod_cast this

/-- A point of prime order `q`, and its image under `(x, y) ↦ (β x, y)` independent of it, span `q²` points killed
by `q`. -/
theorem bls_rank_two' (q x y x' : ℕ) (hq : q.Prime) (hqr : q < bls12381g1.r) (hx : x < bls12381g1_p) (hx0 : 0 < x)
    (hy : y < bls12381g1_p) (hx' : x' = blsBeta * x % bls12381g1_p)
    (h1 : wTors bls12381g1 (fe bls12381g1_p x) (fe bls12381g1_p y) q = R.ok true)
    (hroot : q % 3 = 2 ∨ ∃ c c' : ℕ, c < bls12381g1.r ∧ c' < bls12381g1.r ∧ (c ^ 2 + c + 1) % q = 0 ∧ (c + c' + 1) % q = 0 ∧
      wTimes bls12381g1 (fe bls12381g1_p x) (fe bls12381g1_p y) c (fe bls12381g1_p x') = R.ok false ∧
      wTimes bls12381g1 (fe bls12381g1_p x) (fe bls12381g1_p y) c' (fe bls12381g1_p x') = R.ok false) :
    ∃ H : AddSubgroup (wGroup bls12381g1_p bls12381g1).Point, Nat.card H = q ^ 2 ∧ (∀ a ∈ H, q • a = 0) ∧
      ∀ K : AddSubgroup (wGroup bls12381g1_p bls12381g1).Point,
        (∀ hn, .some (x : ZMod bls12381g1_p) (y : ZMod bls12381g1_p) hn ∈ K) →
        (∀ hn, .some (x' : ZMod bls12381g1_p) (y : ZMod bls12381g1_p) hn ∈ K) → H ≤ K := by
  have hv := bls12381g1_valid
  have hpp : 0 < bls12381g1_p := by decide +kernel
  have hx'p : x' < bls12381g1_p := hx' ▸ Nat.mod_lt _ hpp
  have ha0 : val bls12381g1_p bls12381g1.a = 0 := by
    have : bls12381g1.a.n = 0 := by decide +kernel
    simp [val, this]
  have hW : wGroup bls12381g1_p bls12381g1 = J0.WJ (val bls12381g1_p bls12381g1.b) := by
    rw [wGroup, ha0]
  obtain ⟨hh, e1⟩ := wTors_spec hv (canon_fe hx) (canon_fe hy) hqr h1
  have hvx : val bls12381g1_p (fe bls12381g1_p x) ≠ 0 := by
    have : val bls12381g1_p (fe bls12381g1_p x) = (x : ZMod bls12381g1_p) := by simp [val, fe]
    rw [this, Ne, ZMod.natCast_eq_zero_iff]
    intro hd
    have := Nat.le_of_dvd hx0 hd
    omega
  have vx_eq : val bls12381g1_p (fe bls12381g1_p x) = (x : ZMod bls12381g1_p) := by simp [val, fe]
  have vy_eq : val bls12381g1_p (fe bls12381g1_p y) = (y : ZMod bls12381g1_p) := by simp [val, fe]
  have vx'_eq : (x' : ZMod bls12381g1_p) = (blsBeta : ZMod bls12381g1_p) * val bls12381g1_p (fe bls12381g1_p x) := by
    simp [val, fe, hx']
  rw [vx'_eq, ← vx_eq, ← vy_eq]
  have hvx' : val bls12381g1_p (fe bls12381g1_p x') = (blsBeta : ZMod bls12381g1_p) * val bls12381g1_p (fe bls12381g1_p x) := by
    simp [val, fe, hx']
  have hne : ∀ c : ℕ, c < bls12381g1.r →
      wTimes bls12381g1 (fe bls12381g1_p x) (fe bls12381g1_p y) c (fe bls12381g1_p x') = R.ok false →
      ∀ hb, c • (.some _ _ hh : (wGroup bls12381g1_p bls12381g1).Point) ≠
        .some ((blsBeta : ZMod bls12381g1_p) * val bls12381g1_p (fe bls12381g1_p x)) (val bls12381g1_p (fe bls12381g1_p y)) hb := by
    intro c hc ht hb he
    obtain ⟨_, hh', e2⟩ := wTimes_spec hv (canon_fe hx) (canon_fe hy) (canon_fe hx'p) hc ht
    have := e2.1 (by
      rw [he]
      congr 1
      exact hvx'.symm)
    cases this
  generalize val bls12381g1_p (fe bls12381g1_p x) = vx at *
  generalize val bls12381g1_p (fe bls12381g1_p y) = vy at *
  clear hvx' h1 vx_eq vy_eq vx'_eq
  have three : (3 : ZMod bls12381g1_p) ≠ 0 := by
    intro h0
    have : ((3 : ℕ) : ZMod bls12381g1_p) = 0 := by exact_mod_cast h0
    rw [ZMod.natCast_eq_zero_iff] at this
    have := Nat.le_of_dvd (by norm_num) this
    have : ¬ bls12381g1_p ≤ 3 := by decide +kernel
    omega
  have hq0 := e1.2 rfl
  clear e1
  revert hh
  rw [hW]
  intro hh hne hq0
  have hord : addOrderOf (WeierstrassCurve.Affine.Point.some vx vy hh) = q := by
    haveI : Fact q.Prime := ⟨hq⟩
    exact addOrderOf_eq_prime hq0 (WeierstrassCurve.Affine.Point.some_ne_zero _)
  have hind : ∀ k : ℤ, J0.autHom bls_beta (.some vx vy hh) ≠ k • WeierstrassCurve.Affine.Point.some vx vy hh := by
    intro k hk
    have hroots := J0.root_of_eq (J0.autHom bls_beta) hord (J0.aut_sum three bls_beta hh hvx) hk
    rcases hroot with h3 | ⟨c, c', hc, hc', hcr, hcc, t1, t2⟩
    · exact J0.no_root hq h3 k hroots
    · have hkc : ∀ c0 : ℕ, (q : ℤ) ∣ k - c0 → k • (WeierstrassCurve.Affine.Point.some vx vy hh) =
          c0 • (WeierstrassCurve.Affine.Point.some vx vy hh) := by
        intro c0 hd
        rw [← natCast_zsmul, ← sub_eq_zero, ← sub_smul, ← addOrderOf_dvd_iff_zsmul_eq_zero, hord]
        exact hd
      have hcd : (q : ℤ) ∣ (c : ℤ) ^ 2 + c + 1 := by exact_mod_cast Nat.dvd_of_mod_eq_zero hcr
      have hcd' : (q : ℤ) ∣ (c : ℤ) + c' + 1 := by exact_mod_cast Nat.dvd_of_mod_eq_zero hcc
      rcases J0.two_roots hq hcd hroots with h | h
      · exact hne c hc t1 _ (by rw [← hkc c h, ← hk]; rfl)
      · have h' : (q : ℤ) ∣ k - c' := by
          have := dvd_sub h hcd'
          have e : k - (-1 - (c : ℤ)) - (c + c' + 1) = k - c' := by ring
          rwa [e] at this
        exact hne c' hc' t2 _ (by rw [← hkc c' h', ← hk]; rfl)
  obtain ⟨H, c1, c2, c3⟩ := Cof.rank_two hq hq0 (WeierstrassCurve.Affine.Point.some_ne_zero _)
    (Q := J0.autHom bls_beta (.some vx vy hh)) (by rw [← map_nsmul, hq0, map_zero]) hind
  exact ⟨H, c1, c2, fun K k1 k2 => c3 K (k1 _) (k2 _)⟩

theorem bls_rank_two (q x y x' : ℕ) (hq : q.Prime) (hqr : q < bls12381g1.r) (hx : x < bls12381g1_p) (hx0 : 0 < x)
    (hy : y < bls12381g1_p) (hx' : x' = blsBeta * x % bls12381g1_p)
    (h1 : wTors bls12381g1 (fe bls12381g1_p x) (fe bls12381g1_p y) q = R.ok true)
    (hroot : q % 3 = 2 ∨ ∃ c c' : ℕ, c < bls12381g1.r ∧ c' < bls12381g1.r ∧ (c ^ 2 + c + 1) % q = 0 ∧ (c + c' + 1) % q = 0 ∧
      wTimes bls12381g1 (fe bls12381g1_p x) (fe bls12381g1_p y) c (fe bls12381g1_p x') = R.ok false ∧
      wTimes bls12381g1 (fe bls12381g1_p x) (fe bls12381g1_p y) c' (fe bls12381g1_p x') = R.ok false) :
    ∃ H : AddSubgroup (wGroup bls12381g1_p bls12381g1).Point, Nat.card H = q ^ 2 ∧ ∀ a ∈ H, q • a = 0 := by
  obtain ⟨H, c1, c2, -⟩ := bls_rank_two' q x y x' hq hqr hx hx0 hy hx' h1 hroot
  exact ⟨H, c1, c2⟩

theorem bls_rank_11 : ∃ H : AddSubgroup (wGroup bls12381g1_p bls12381g1).Point, Nat.card H = 11 ^ 2 ∧ ∀ a ∈ H, 11 • a = 0 :=
  bls_rank_two 11
    3253033608071528083035230876039060131863417245602626450272171491216781211333398580351097532742936901381794441219000
    263717933183042481211907471272957902390808639416329260656514385772218419238902503396669143705143038367400411614672 _
    (by norm_num) (by decide +kernel) (by decide +kernel) (by decide +kernel) (by decide +kernel) rfl (by decide +kernel)
    (Or.inl (by norm_num))

theorem bls_rank_10177 :
    ∃ H : AddSubgroup (wGroup bls12381g1_p bls12381g1).Point, Nat.card H = 10177 ^ 2 ∧ ∀ a ∈ H, 10177 • a = 0 :=
  bls_rank_two 10177
    2242282863826579251201571680037914303872833870900459691878992458357858414548533343199485584146125418395821250440189
    1263413356589411508543825938917528298941893928831349125099238730182141311007270362081489134656884632975236873071803 _
    (by norm_num) (by decide +kernel) (by decide +kernel) (by decide +kernel) (by decide +kernel) rfl (by decide +kernel)
    (Or.inr ⟨5403, 4773, by decide +kernel, by decide +kernel, by decide +kernel, by decide +kernel, by decide +kernel,
      by decide +kernel⟩)

theorem bls_rank_859267 :
    ∃ H : AddSubgroup (wGroup bls12381g1_p bls12381g1).Point, Nat.card H = 859267 ^ 2 ∧ ∀ a ∈ H, 859267 • a = 0 :=
  bls_rank_two 859267
    998823112868880107770080429032353973032032204232513606580054484884638618514522700612993901849076059826046107442889
    3177270327013676617268249382196777187547650092375245312053923920769301520281774335870434801205287119924294620698201 _
    (by norm_num) (by decide +kernel) (by decide +kernel) (by decide +kernel) (by decide +kernel) rfl (by decide +kernel)
    (Or.inr ⟨119571, 739695, by decide +kernel, by decide +kernel, by decide +kernel, by decide +kernel, by decide +kernel,
      by decide +kernel⟩)

theorem bls_rank_52437899 :
    ∃ H : AddSubgroup (wGroup bls12381g1_p bls12381g1).Point, Nat.card H = 52437899 ^ 2 ∧ ∀ a ∈ H, 52437899 • a = 0 :=
  bls_rank_two 52437899
    3629788447702516505536732746871516758761290927368668000511400179767727988335855321254628850407627337980501785983287
    1104086436883860351844941995565456521360012532845652420188776018407506404620282319951498396718632842209762732703807 _
    (by norm_num) (by decide +kernel) (by decide +kernel) (by decide +kernel) (by decide +kernel) rfl (by decide +kernel)
    (Or.inl (by norm_num))

theorem w_finite {p : ℕ} [Fact p.Prime] {e : Weierstrass.Curve} (hc : WCurve p e) : Finite (wGroup p e).Point :=
  Count.finite_points hc.odd _ rfl rfl

theorem w_odd {p : ℕ} [Fact p.Prime] {e : Weierstrass.Curve} (hv : WValid p e) : ¬ 2 ∣ Nat.card (wGroup p e).Point := by
  haveI := w_finite hv.curve
  intro hd
  haveI : Fact (Nat.Prime 2) := ⟨Nat.prime_two⟩
  obtain ⟨B, hB⟩ := exists_prime_addOrderOf_dvd_card' (G := (wGroup p e).Point) 2 hd
  have h0 : B = 0 := hv.complete B (by rw [← two_nsmul, ← hB]; exact addOrderOf_nsmul_eq_zero B)
  rw [h0, addOrderOf_zero] at hB
  omega

theorem card_bls : Nat.card (wGroup bls12381g1_p bls12381g1).Point = blsN := by
  have hv := bls12381g1_valid
  haveI := w_finite hv.curve
  obtain ⟨-, A, -, -, hA⟩ := hv.generator
  have hr : bls12381g1.r ∣ Nat.card (wGroup bls12381g1_p bls12381g1).Point := by
    have : addOrderOf A = bls12381g1.r := hA
    exact this ▸ addOrderOf_dvd_natCard A
  have h3 : 3 ∣ Nat.card (wGroup bls12381g1_p bls12381g1).Point := by
    obtain ⟨hh, e1⟩ := wTors_spec hv (x := fe bls12381g1_p 0) (y := fe bls12381g1_p 2) (k := 3) (b := true)
      (canon_fe (by decide +kernel)) (canon_fe (by decide +kernel)) (by decide +kernel) (by decide +kernel)
    haveI : Fact (Nat.Prime 3) := ⟨Nat.prime_three⟩
    have := addOrderOf_eq_prime (e1.2 rfl) (WeierstrassCurve.Affine.Point.some_ne_zero _)
    exact this ▸ addOrderOf_dvd_natCard _
  have hH : ∀ {q : ℕ}, (∃ H : AddSubgroup (wGroup bls12381g1_p bls12381g1).Point, Nat.card H = q ^ 2 ∧ ∀ a ∈ H, q • a = 0) →
      q ^ 2 ∣ Nat.card (wGroup bls12381g1_p bls12381g1).Point := by
    rintro q ⟨H, hc, -⟩
    exact hc ▸ H.card_addSubgroup_dvd_card
  have hN : bls12381g1.r * (3 * (11 ^ 2 * (10177 ^ 2 * (859267 ^ 2 * 52437899 ^ 2)))) ∣
      Nat.card (wGroup bls12381g1_p bls12381g1).Point := by
    refine Nat.Coprime.mul_dvd_of_dvd_of_dvd (by decide +kernel) hr ?_
    refine Nat.Coprime.mul_dvd_of_dvd_of_dvd (by decide +kernel) h3 ?_
    refine Nat.Coprime.mul_dvd_of_dvd_of_dvd (by decide +kernel) (hH bls_rank_11) ?_
    refine Nat.Coprime.mul_dvd_of_dvd_of_dvd (by decide +kernel) (hH bls_rank_10177) ?_
    exact Nat.Coprime.mul_dvd_of_dvd_of_dvd (by decide +kernel) (hH bls_rank_859267) (hH bls_rank_52437899)
  have hNe : bls12381g1.r * (3 * (11 ^ 2 * (10177 ^ 2 * (859267 ^ 2 * 52437899 ^ 2)))) = blsN := by decide +kernel
  rw [hNe] at hN
  obtain ⟨k, hk⟩ := hN
  have hle := Count.card_le hv.curve.odd (wGroup bls12381g1_p bls12381g1) rfl rfl
  have hodd := w_odd hv
  have hpos : 0 < Nat.card (wGroup bls12381g1_p bls12381g1).Point := Nat.card_pos
  rw [hk] at hle hpos hodd ⊢
  have hb : 2 * bls12381g1_p + 1 < blsN * 3 := by decide +kernel
  have hk3 : k < 3 := by
    by_contra hge
    have : blsN * 3 ≤ blsN * k := Nat.mul_le_mul_left _ (by omega)
    omega
  have hk2 : k ≠ 2 := by rintro rfl; exact hodd (Dvd.intro_left _ rfl)
  have hk0 : k ≠ 0 := by rintro rfl; simp at hpos
  have : k = 1 := by omega
  rw [this, mul_one]

/-- The order times the effective cofactor kills every point of BLS12-381 G1. -/
theorem kill_bls (A : (wGroup bls12381g1_p bls12381g1).Point) : (bls12381g1.r * bls12381g1.h) • A = 0 := by
  haveI := w_finite bls12381g1_valid.curve
  have hq : ∀ {q : ℕ} (m : ℕ), (∃ H : AddSubgroup (wGroup bls12381g1_p bls12381g1).Point, Nat.card H = q ^ 2 ∧
      ∀ a ∈ H, q • a = 0) → blsN = q ^ 2 * m → addOrderOf A ∣ q * m := by
    rintro q m ⟨H, hc, hk⟩ hm
    rw [addOrderOf_dvd_iff_nsmul_eq_zero]
    exact Cof.kill_of_subgroup H hk (by rw [hc, card_bls, hm]) A
  rw [← addOrderOf_dvd_iff_nsmul_eq_zero]
  have h1 := hq (blsN / 11 ^ 2) bls_rank_11 (by decide +kernel)
  have h2 := hq (blsN / 10177 ^ 2) bls_rank_10177 (by decide +kernel)
  have h3 := hq (blsN / 859267 ^ 2) bls_rank_859267 (by decide +kernel)
  have h4 := hq (blsN / 52437899 ^ 2) bls_rank_52437899 (by decide +kernel)
  have := Nat.dvd_gcd (Nat.dvd_gcd h1 h2) (Nat.dvd_gcd h3 h4)
  have e : Nat.gcd (Nat.gcd (11 * (blsN / 11 ^ 2)) (10177 * (blsN / 10177 ^ 2)))
      (Nat.gcd (859267 * (blsN / 859267 ^ 2)) (52437899 * (blsN / 52437899 ^ 2))) = bls12381g1.r * bls12381g1.h := by
    decide +kernel
  rwa [e] at this

/-! ## C59: the number of points -/

/-- C59, Weierstrass, five curves: `get_order()` times `get_cofactor()` is the number of points. Partial: it fails for the
two BLS12-381 curves, see `C59_bls_refuted` and `C59_bls_iso_refuted`. -/
theorem _root_.Redox.Props.C59_weierstrass_partial : ∀ t ∈ primeOrderList, ∃ (_ : Fact t.2.Prime) (e : Weierstrass.Curve),
    t.1 = R.ok e ∧ (Nat.card (wGroup t.2 e).Point : ℤ) = e.getOrder * e.getCofactor := by
  have key : ∀ (c : R Weierstrass.Curve) (p : ℕ) [Fact p.Prime] (e : Weierstrass.Curve), c = R.ok e → WValid p e →
      2 * p + 1 < 3 * e.r → e.h = 1 → ∃ (_ : Fact p.Prime) (e : Weierstrass.Curve),
      c = R.ok e ∧ (Nat.card (wGroup p e).Point : ℤ) = e.getOrder * e.getCofactor := by
    intro c p _ e hc hv hb h1
    refine ⟨inferInstance, e, hc, ?_⟩
    rw [card_of_valid hv hb, Weierstrass.Curve.getOrder, Weierstrass.Curve.getCofactor, h1]
    simp
  rw [primeOrderList, weierstrassList, p256_p_eq, p384_p_eq, p521_p_eq, secp256k1_p_eq, bls_p_eq]
  simp only [List.take, List.forall_mem_cons]
  exact ⟨key _ _ _ p256_eq p256_valid (by decide +kernel) (by decide +kernel),
    key _ _ _ p384_eq p384_valid (by decide +kernel) (by decide +kernel),
    key _ _ _ p521_eq p521_valid (by decide +kernel) (by decide +kernel),
    key _ _ _ secp256k1_eq secp256k1_valid (by decide +kernel) (by decide +kernel),
    key _ _ _ secp256k1_3iso_eq secp256k1_3iso_valid (by decide +kernel) (by decide +kernel), by simp⟩

/-- C59, Montgomery: `get_order()` times `get_cofactor()` is the number of points. -/
theorem _root_.Redox.Props.C59_montgomery : ∀ t ∈ montgomeryList, ∃ (_ : Fact t.2.Prime) (e : Montgomery.Curve),
    t.1 = R.ok e ∧ (Nat.card (mGroup t.2 e).Point : ℤ) = e.getOrder * e.getCofactor := by
  rw [montgomeryList, c25519_p_eq, c448_p_eq]
  simp only [List.forall_mem_cons]
  refine ⟨⟨inferInstance, _, curve25519_eq, ?_⟩, ⟨inferInstance, _, curve448_eq, ?_⟩, by simp⟩
  · rw [card_curve25519]
    have : curve25519.h = 8 := by decide +kernel
    simp [Montgomery.Curve.getOrder, Montgomery.Curve.getCofactor, this]
  · rw [card_curve448]
    have : curve448.h = 4 := by decide +kernel
    simp [Montgomery.Curve.getOrder, Montgomery.Curve.getCofactor, this]

/-- C59, Edwards: `get_order()` times `get_cofactor()` is the number of points. -/
theorem _root_.Redox.Props.C59_edwards : ∀ t ∈ edwardsList, ∃ (_ : Fact t.2.Prime) (e : Edwards.Curve),
    t.1 = R.ok e ∧ (Nat.card (eGroup t.2 e) : ℤ) = e.getOrder * e.getCofactor := by
  rw [edwardsList, c25519_p_eq, c448_p_eq]
  simp only [List.forall_mem_cons]
  refine ⟨⟨inferInstance, _, edwards25519_eq, ?_⟩, ⟨inferInstance, _, edwards448_eq, ?_⟩, by simp⟩
  · haveI := edwards25519_valid.curve
    rw [card_edwards25519]
    have : edwards25519.h = 8 := by decide +kernel
    simp [Edwards.Curve.getOrder, Edwards.Curve.getCofactor, this]
  · haveI := edwards448_valid.curve
    rw [card_edwards448]
    have : edwards448.h = 4 := by decide +kernel
    simp [Edwards.Curve.getOrder, Edwards.Curve.getCofactor, this]

/-- C59 is refuted for BLS12-381 G1: the curve has exactly `(1 - x)² / 3` times `get_order()` points for the BLS parameter
`x = -blsX`, and `get_cofactor()` is `1 - x` instead. -/
theorem _root_.Redox.Props.C59_bls_refuted : ∃ (_ : Fact blsP.Prime) (e : Weierstrass.Curve), BLS12381G1 = R.ok e ∧
    Nat.card (wGroup blsP e).Point = (blsX + 1) ^ 2 / 3 * e.getOrder ∧
    (Nat.card (wGroup blsP e).Point : ℤ) ≠ e.getOrder * e.getCofactor := by
  rw [bls_p_eq]
  refine ⟨inferInstance, _, bls12381g1_eq, ?_, ?_⟩
  · rw [card_bls]; decide +kernel
  · rw [card_bls]; decide +kernel

/-! ## C58: clearing the cofactor -/

theorem w_clear {p : ℕ} [Fact p.Prime] {e : Weierstrass.Curve} (hv : WValid p e) (hh : e.h < e.r) (h0 : e.h ≠ 0)
    (hk : ∀ A : (wGroup p e).Point, (e.r * e.h) • A = 0) (hc : ¬ e.r * e.r ∣ Nat.card (wGroup p e).Point) :
    ∃ G g, e.getGenerator = R.ok G ∧ WDenotes p e G g ∧
      ∀ (prof : Profile) (P : Weierstrass.Point) (A : (wGroup p e).Point), WDenotes p e P A →
        ∃ n : ℤ, WReturns p e (do P.mul prof (← e.newScalar e.getCofactor)) (n • g) := by
  haveI := w_finite hv.curve
  obtain ⟨G, g, hG, hg, ho⟩ := hv.generator
  refine ⟨G, g, hG, hg, fun prof P A hP => ?_⟩
  obtain ⟨-, n, hn⟩ := Cof.cleared (r := e.r) (h := e.h) hv.order_prime ho hk hc A
  refine ⟨n, ?_⟩
  have hr1 : 1 ≤ e.r := hv.order_prime.one_le
  simp only [Weierstrass.Curve.newScalar, scalar_new_eq e.r hr1, R.ok_bind, Weierstrass.Curve.getCofactor]
  rw [Int.emod_eq_of_lt (by omega) (by omega), ← hn, ← natCast_zsmul]
  exact C25_mul_partial p e hv.curve hv.complete hv.order_bits prof P A hP ⟨e.h, e.r⟩
    ⟨rfl, by simp, by simpa using hh⟩ (Or.inl (by simpa using h0))

/-- The curves of the list other than `BLS12381G1_11ISO`. -/
def clearList : List (R Weierstrass.Curve × ℕ) := weierstrassList.take 6

/-- C58, Weierstrass: on six of the seven curves, in every build profile, `P * new_scalar(get_cofactor())` is a multiple of
the generator for every point `P`. Partial: it fails for `BLS12381G1_11ISO`, see `C58_bls_iso_refuted`. -/
theorem _root_.Redox.Props.C58_weierstrass_partial : ∀ t ∈ clearList, ∃ (_ : Fact t.2.Prime) (e : Weierstrass.Curve),
    t.1 = R.ok e ∧ ∃ G g, e.getGenerator = R.ok G ∧ WDenotes t.2 e G g ∧
      ∀ (prof : Profile) (P : Weierstrass.Point) (A : (wGroup t.2 e).Point), WDenotes t.2 e P A →
        ∃ n : ℤ, WReturns t.2 e (do P.mul prof (← e.newScalar e.getCofactor)) (n • g) := by
  have key : ∀ (c : R Weierstrass.Curve) (p : ℕ) [Fact p.Prime] (e : Weierstrass.Curve), c = R.ok e → WValid p e →
      2 * p + 1 < 3 * e.r → e.h = 1 → ∃ (_ : Fact p.Prime) (e : Weierstrass.Curve),
      c = R.ok e ∧ ∃ G g, e.getGenerator = R.ok G ∧ WDenotes p e G g ∧
      ∀ (prof : Profile) (P : Weierstrass.Point) (A : (wGroup p e).Point), WDenotes p e P A →
        ∃ n : ℤ, WReturns p e (do P.mul prof (← e.newScalar e.getCofactor)) (n • g) := by
    intro c p _ e hc hv hb h1
    have hcard := card_of_valid hv hb
    have hr2 : 2 ≤ e.r := hv.order_prime.two_le
    refine ⟨inferInstance, e, hc, w_clear hv (by omega) (by omega) (fun A => ?_) ?_⟩
    · rw [h1, mul_one, ← hcard]; exact card_nsmul_eq_zero'
    · rw [hcard]
      intro hd
      have := Nat.le_of_dvd (by omega) hd
      nlinarith
  rw [clearList, weierstrassList, p256_p_eq, p384_p_eq, p521_p_eq, secp256k1_p_eq, bls_p_eq]
  simp only [List.take, List.forall_mem_cons]
  exact ⟨key _ _ _ p256_eq p256_valid (by decide +kernel) (by decide +kernel),
    key _ _ _ p384_eq p384_valid (by decide +kernel) (by decide +kernel),
    key _ _ _ p521_eq p521_valid (by decide +kernel) (by decide +kernel),
    key _ _ _ secp256k1_eq secp256k1_valid (by decide +kernel) (by decide +kernel),
    key _ _ _ secp256k1_3iso_eq secp256k1_3iso_valid (by decide +kernel) (by decide +kernel),
    ⟨inferInstance, _, bls12381g1_eq, w_clear bls12381g1_valid (by decide +kernel) (by decide +kernel) kill_bls
      (by rw [card_bls]; decide +kernel)⟩, by simp⟩

/-- C58, Montgomery: in every build profile, `P * new_scalar(get_cofactor())` is a multiple of the generator for every
point `P`. -/
theorem _root_.Redox.Props.C58_montgomery : ∀ t ∈ montgomeryList, ∃ (_ : Fact t.2.Prime) (e : Montgomery.Curve),
    t.1 = R.ok e ∧ ∃ G g, e.getGenerator = R.ok G ∧ MDenotes t.2 e G g ∧
      ∀ (prof : Profile) (P : Montgomery.Point) (A : (mGroup t.2 e).Point), MDenotes t.2 e P A →
        ∃ n : ℤ, MReturns t.2 e (do P.mul prof (← e.newScalar e.getCofactor)) (n • g) := by
  have key : ∀ (c : R Montgomery.Curve) (p : ℕ) [Fact p.Prime] (e : Montgomery.Curve), c = R.ok e → MValid p e →
      Nat.card (mGroup p e).Point = e.r * e.h → e.h < e.r → e.h ≠ 0 → ∃ (_ : Fact p.Prime) (e : Montgomery.Curve),
      c = R.ok e ∧ ∃ G g, e.getGenerator = R.ok G ∧ MDenotes p e G g ∧
      ∀ (prof : Profile) (P : Montgomery.Point) (A : (mGroup p e).Point), MDenotes p e P A →
        ∃ n : ℤ, MReturns p e (do P.mul prof (← e.newScalar e.getCofactor)) (n • g) := by
    intro c p _ e hc hv hcard hh h0
    haveI := m_finite hv.curve
    have hr1 : 1 ≤ e.r := hv.order_prime.one_le
    obtain ⟨G, g, hG, hg, ho⟩ := hv.generator
    refine ⟨inferInstance, e, hc, G, g, hG, hg, fun prof P A hP => ?_⟩
    obtain ⟨-, n, hn⟩ := Cof.cleared (r := e.r) (h := e.h) hv.order_prime ho
      (fun B => by rw [← hcard]; exact card_nsmul_eq_zero') (by
        rw [hcard]
        intro hd
        have := Nat.le_of_dvd (by omega) (Nat.dvd_of_mul_dvd_mul_left hr1 hd)
        omega) A
    refine ⟨n, ?_⟩
    simp only [Montgomery.Curve.newScalar, scalar_new_eq e.r hr1, R.ok_bind, Montgomery.Curve.getCofactor]
    rw [Int.emod_eq_of_lt (by omega) (by omega), ← hn, ← natCast_zsmul]
    exact C33_mul_partial p e hv.curve hv.b_one hv.complete hv.order_bits prof P A hP ⟨e.h, e.r⟩
      ⟨rfl, by simp, by simpa using hh⟩ (Or.inl (by simpa using h0))
  rw [montgomeryList, c25519_p_eq, c448_p_eq]
  simp only [List.forall_mem_cons]
  exact ⟨key _ _ _ curve25519_eq curve25519_valid card_curve25519 (by decide +kernel) (by decide +kernel),
    key _ _ _ curve448_eq curve448_valid card_curve448 (by decide +kernel) (by decide +kernel), by simp⟩

/-- C58, Edwards: in every build profile, `P * new_scalar(get_cofactor())` is a multiple of the generator for every
point `P`. -/
theorem _root_.Redox.Props.C58_edwards : ∀ t ∈ edwardsList, ∃ (_ : Fact t.2.Prime) (e : Edwards.Curve) (_ : ECurve t.2 e),
    t.1 = R.ok e ∧ ∃ G g, e.getGenerator = R.ok G ∧ EDenotes t.2 e G g ∧
      ∀ (prof : Profile) (P : Edwards.Point) (A : eGroup t.2 e), EDenotes t.2 e P A →
        ∃ n : ℤ, EReturns t.2 e (do P.mul prof (← e.newScalar e.getCofactor)) (n • g) := by
  have key : ∀ (c : R Edwards.Curve) (p : ℕ) [Fact p.Prime] (e : Edwards.Curve) [ECurve p e], c = R.ok e → EValid p e →
      Nat.card (eGroup p e) = e.r * e.h → e.h < e.r → e.h ≠ 0 →
      ∃ (_ : Fact p.Prime) (e : Edwards.Curve) (_ : ECurve p e),
      c = R.ok e ∧ ∃ G g, e.getGenerator = R.ok G ∧ EDenotes p e G g ∧
      ∀ (prof : Profile) (P : Edwards.Point) (A : eGroup p e), EDenotes p e P A →
        ∃ n : ℤ, EReturns p e (do P.mul prof (← e.newScalar e.getCofactor)) (n • g) := by
    intro c p _ e _ hc hv hcard hh h0
    haveI := Cof.finiteE (a := val p e.a) (d := val p e.d) hv.curve.params.odd
    have hr1 : 1 ≤ e.r := hv.order_prime.one_le
    obtain ⟨G, g, hG, hg, ho⟩ := hv.generator
    refine ⟨inferInstance, e, inferInstance, hc, G, g, hG, hg, fun prof P A hP => ?_⟩
    obtain ⟨-, n, hn⟩ := Cof.cleared (r := e.r) (h := e.h) hv.order_prime ho
      (fun B => by rw [← hcard]; exact card_nsmul_eq_zero') (by
        rw [hcard]
        intro hd
        have := Nat.le_of_dvd (by omega) (Nat.dvd_of_mul_dvd_mul_left hr1 hd)
        omega) A
    refine ⟨n, ?_⟩
    simp only [Edwards.Curve.newScalar, scalar_new_eq e.r hr1, R.ok_bind, Edwards.Curve.getCofactor]
    rw [Int.emod_eq_of_lt (by omega) (by omega), ← hn, ← natCast_zsmul]
    exact C37_mul_partial p e hv.order_bits prof P A hP ⟨e.h, e.r⟩
      ⟨rfl, by simp, by simpa using hh⟩ (Or.inl (by simpa using h0))
  rw [edwardsList, c25519_p_eq, c448_p_eq]
  simp only [List.forall_mem_cons]
  haveI := edwards25519_valid.curve
  haveI := edwards448_valid.curve
  exact ⟨key _ _ _ edwards25519_eq edwards25519_valid card_edwards25519 (by decide +kernel) (by decide +kernel),
    key _ _ _ edwards448_eq edwards448_valid card_edwards448 (by decide +kernel) (by decide +kernel), by simp⟩

/-- A point of order 121 of the curve 11-isogenous to BLS12-381 G1. -/
theorem bls_iso_121 : ∃ (P : Weierstrass.Point) (A : (wGroup bls12381g1_p bls12381g1_11iso).Point),
    WDenotes bls12381g1_p bls12381g1_11iso P A ∧ addOrderOf A = 11 ^ 2 := by
  have hv := bls12381g1_11iso_valid
  have hx : 3990517269510128125444671450619933315162916624033127072676729173620088093878439937761669143899666791239519030046789
    < bls12381g1_p := by decide +kernel
  have hy : 1932266356218062222382062392242114886653701019725368388146505303691877975618667348976275434324244602731371918439191
    < bls12381g1_p := by decide +kernel
  obtain ⟨hh, e1⟩ := wTors_spec hv (k := 11 ^ 2) (b := true) (canon_fe hx) (canon_fe hy) (by decide +kernel) (by decide +kernel)
  obtain ⟨_, e0⟩ := wTors_spec hv (k := 11 ^ 1) (b := false) (canon_fe hx) (canon_fe hy) (by decide +kernel) (by decide +kernel)
  haveI : Fact (Nat.Prime 11) := ⟨by norm_num⟩
  obtain ⟨P, hP, -, -, -, hh', hd⟩ := (C22_new_point _ _ hv.curve _ _ (canon_fe hx) (canon_fe hy)).1 (by
    have := ((wGroup bls12381g1_p bls12381g1_11iso).equation_iff _ _).1 hh.1
    simp only [OnW]
    linear_combination this)
  exact ⟨P, _, hd, addOrderOf_eq_prime_pow (fun h => by simpa using e0.1 h) (e1.2 rfl)⟩

/-- C58 is refuted for `BLS12381G1_11ISO`: there is a point whose product by `get_cofactor()` is not killed by
`get_order()`, hence is outside the subgroup of the generator. -/
theorem _root_.Redox.Props.C58_bls_iso_refuted : ∃ (_ : Fact blsP.Prime) (e : Weierstrass.Curve),
    BLS12381G1_11ISO = R.ok e ∧ ∃ (P : Weierstrass.Point) (A : (wGroup blsP e).Point), WDenotes blsP e P A ∧
      (∀ prof, WReturns blsP e (do P.mul prof (← e.newScalar e.getCofactor)) (e.getCofactor • A)) ∧
      e.getOrder • (e.getCofactor • A) ≠ 0 ∧
      ∀ G g, e.getGenerator = R.ok G → WDenotes blsP e G g → ∀ n : ℤ, e.getCofactor • A ≠ n • g := by
  rw [bls_p_eq]
  have hv := bls12381g1_11iso_valid
  obtain ⟨P, A, hP, hA⟩ := bls_iso_121
  have hne : bls12381g1_11iso.getOrder • (bls12381g1_11iso.getCofactor • A) ≠ 0 := by
    rw [← natCast_zsmul, ← mul_smul, Ne, ← addOrderOf_dvd_iff_zsmul_eq_zero, hA]
    decide +kernel
  refine ⟨inferInstance, _, bls12381g1_11iso_eq, P, A, hP, ?_, hne, ?_⟩
  · intro prof
    have hr1 : 1 ≤ bls12381g1_11iso.r := hv.order_prime.one_le
    have hlt : bls12381g1_11iso.h < bls12381g1_11iso.r := by decide +kernel
    simp only [Weierstrass.Curve.newScalar, scalar_new_eq _ hr1, R.ok_bind, Weierstrass.Curve.getCofactor]
    rw [Int.emod_eq_of_lt (by omega) (by exact_mod_cast hlt)]
    exact C25_mul_partial _ _ hv.curve hv.complete hv.order_bits prof P A hP ⟨bls12381g1_11iso.h, bls12381g1_11iso.r⟩
      ⟨rfl, by simp, by simpa using hlt⟩ (Or.inl (by decide +kernel))
  · intro G g hG hg n hn
    apply hne
    obtain ⟨G', g', hG', hg', ho⟩ := hv.generator
    rw [hG, R.ok.injEq] at hG'
    subst hG'
    have := C27_unique _ _ _ _ _ hg hg'
    subst this
    rw [hn, smul_comm, ← ho, addOrderOf_nsmul_eq_zero, smul_zero]

/-- C59 is refuted for `BLS12381G1_11ISO` too. -/
theorem _root_.Redox.Props.C59_bls_iso_refuted : ∃ (_ : Fact blsP.Prime) (e : Weierstrass.Curve),
    BLS12381G1_11ISO = R.ok e ∧ (Nat.card (wGroup blsP e).Point : ℤ) ≠ e.getOrder * e.getCofactor := by
  rw [bls_p_eq]
  refine ⟨inferInstance, _, bls12381g1_11iso_eq, ?_⟩
  haveI := w_finite bls12381g1_11iso_valid.curve
  obtain ⟨P, A, hP, hA⟩ := bls_iso_121
  intro h
  have h1 : ((11 ^ 2 : ℕ) : ℤ) ∣ bls12381g1_11iso.getOrder * bls12381g1_11iso.getCofactor := by
    rw [← h, ← hA]
    exact_mod_cast addOrderOf_dvd_natCard A
  revert h1
  decide +kernel

end Redox.Props.Inst
