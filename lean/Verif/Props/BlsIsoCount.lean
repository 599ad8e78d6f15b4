import Verif.Props.IsoHomProps

/-!
# The number of points of `BLS12381G1_11ISO` (C68)
-/

set_option maxRecDepth 100000

namespace Redox.Props.Isog

open Spec Weierstrass WLink Redox.Inst CofLink IsoGrid

/-- `(t.1, t.2.1)` is a point of the domain and `(t.2.2.1, t.2.2.2)` its image. -/
def imgPt (p : ℕ) (m : IsoMap) (t : ℕ × ℕ × ℕ × ℕ) : Bool :=
  Nat.beq (t.2.1 * t.2.1 % p) ((t.1 * t.1 * t.1 + m.e0.a.n.toNat * t.1 + m.e0.b.n.toNat) % p) &&
    !Nat.beq (hornN p t.1 (RLink.nats m.x_den)) 0 && !Nat.beq (hornN p t.1 (RLink.nats m.y_den)) 0 &&
    Nat.beq (t.2.2.1 * hornN p t.1 (RLink.nats m.x_den) % p) (hornN p t.1 (RLink.nats m.x_num)) &&
    Nat.beq (t.2.2.2 * hornN p t.1 (RLink.nats m.y_den) % p) (t.2.1 * hornN p t.1 (RLink.nats m.y_num) % p)

theorem hornN_ne {p : ℕ} [Fact p.Prime] {c : ℕ} {cs : List ℕ} (h : (!Nat.beq (hornN p c cs) 0) = true) :
    PolyC.ev (c : ZMod p) cs ≠ 0 := by
  have hp : 0 < p := (Fact.out : p.Prime).pos
  intro hz
  have e1 := hornN_cast (p := p) c cs
  change _ = PolyC.ev _ cs at e1
  rw [hz, ZMod.natCast_eq_zero_iff] at e1
  have h3 : hornN p c cs < p := by
    cases cs with
    | nil => simpa only [hornN] using hp
    | cons c cs => exact Nat.mod_lt _ hp
  rw [Nat.eq_zero_of_dvd_of_lt e1 h3] at h
  simp at h

theorem imgPt_mem {p : ℕ} [Fact p.Prime] {m : IsoMap} (h : IsoOK p m)
    {φ : (wGroup p m.e0).Point →+ (wGroup p m.e1).Point} (hφ : ∀ A, IsoImage m A (φ A)) {t : ℕ × ℕ × ℕ × ℕ}
    (ht : imgPt p m t = true) : ∀ hn, .some (t.2.2.1 : ZMod p) (t.2.2.2 : ZMod p) hn ∈ φ.range := by
  intro hn
  simp only [imgPt, Bool.and_eq_true, Nat.beq_eq] at ht
  obtain ⟨⟨⟨⟨t1, t2⟩, t3⟩, t4⟩, t5⟩ := ht
  have c1 : ((t.2.1 : ℕ) : ZMod p) ^ 2 = (t.1 : ZMod p) ^ 3 + val p m.e0.a * t.1 + val p m.e0.b := by
    have := (ZMod.natCast_eq_natCast_iff' _ _ p).2 t1
    push_cast at this
    rw [RLink.val_toNat h.e0.canon_a, RLink.val_toNat h.e0.canon_b]
    linear_combination this
  obtain ⟨hnn, -⟩ := Map.newPoint_some h.e0 c1
  have n2 := hornN_ne t2
  have n3 := hornN_ne t3
  have vxn : polyVal p m.x_num t.1 = PolyC.ev (t.1 : ZMod p) (RLink.nats m.x_num) := RLink.polyVal_ev _ h.canon_xn _
  have vxd : polyVal p m.x_den t.1 = PolyC.ev (t.1 : ZMod p) (RLink.nats m.x_den) := RLink.polyVal_ev _ h.canon_xd _
  have vyn : polyVal p m.y_num t.1 = PolyC.ev (t.1 : ZMod p) (RLink.nats m.y_num) := RLink.polyVal_ev _ h.canon_yn _
  have vyd : polyVal p m.y_den t.1 = PolyC.ev (t.1 : ZMod p) (RLink.nats m.y_den) := RLink.polyVal_ev _ h.canon_yd _
  have e4 := congrArg (Nat.cast : ℕ → ZMod p) t4
  have e5 := congrArg (Nat.cast : ℕ → ZMod p) t5
  rw [ZMod.natCast_mod, Nat.cast_mul, hornN_cast, hornN_cast] at e4
  rw [ZMod.natCast_mod, ZMod.natCast_mod, Nat.cast_mul, Nat.cast_mul, hornN_cast, hornN_cast] at e5
  refine ⟨.some _ _ hnn, image_unique (hφ _) ⟨?_, ?_, ?_⟩⟩
  · rw [InKernel, vxd, vyd, not_or]; exact ⟨n2, n3⟩
  · rw [vxn, vxd, eq_div_iff n2]; exact e4
  · rw [vyn, vyd, ← mul_div_assoc, eq_div_iff n3]; exact e5

theorem bls_range_10177 {φ : (wGroup bls12381g1_p isoBls12381g1.e0).Point →+ (wGroup bls12381g1_p isoBls12381g1.e1).Point}
    (hφ : ∀ A, IsoImage isoBls12381g1 A (φ A)) : 10177 ^ 2 ∣ Nat.card φ.range := by
  obtain ⟨H, hc, -, hK⟩ := Inst.bls_rank_two' 10177
    2124891533608354508146336161608027857059869909542425057150156793261421154788274948680896749096218157545232215115432
    263111161250274505237902514935751232465190295702095082374551915582830807332875662842418817890246120673310979966513
    1387897127973687688411234445719374659010844565661097859154142182860778237944290598726047967989346324189013763907364
    (by norm_num) (by decide +kernel) (by decide +kernel) (by decide +kernel) (by decide +kernel) (by decide +kernel) (by decide +kernel)
    (Or.inr ⟨4773, 5403, by decide +kernel, by decide +kernel, by decide +kernel, by decide +kernel, by decide +kernel,
      by decide +kernel⟩)
  rw [← hc]
  exact AddSubgroup.card_dvd_of_le (hK φ.range
    (imgPt_mem isoBls12381g1_ok hφ (t := (
      1874932886015025282734081826638565318030270686264865483573187119290537398890760642286673872047188756521224682250135,
      1811974460253004427054633025637442704095226733257809199694276196374305617044382824481994620809626347096021851459503, _, _)) (by decide +kernel))
    (imgPt_mem isoBls12381g1_ok hφ (t := (
      295425682374206011878710398632593040104679209494607834726964734068110202583242223115463233532399355337044723934844,
      613761563369971370190141019096941940609611713660572554335694191863897485009102762051485150696432683915131784541486, _, _)) (by decide +kernel)))

theorem bls_range_859267 {φ : (wGroup bls12381g1_p isoBls12381g1.e0).Point →+ (wGroup bls12381g1_p isoBls12381g1.e1).Point}
    (hφ : ∀ A, IsoImage isoBls12381g1 A (φ A)) : 859267 ^ 2 ∣ Nat.card φ.range := by
  obtain ⟨H, hc, -, hK⟩ := Inst.bls_rank_two' 859267
    596662244301004195528301100927353226388644119274216538976183165262623582569955727520370193035465612243786002711039
    2284880455641645141009337856845310644880237555294093249273882406119706655667641398324980791245147654059265121025214
    1393007708202050879003349657805204573664845476865233586969003013229025631126980284932248767709895405735311660721409
    (by norm_num) (by decide +kernel) (by decide +kernel) (by decide +kernel) (by decide +kernel) (by decide +kernel) (by decide +kernel)
    (Or.inr ⟨119571, 739695, by decide +kernel, by decide +kernel, by decide +kernel, by decide +kernel, by decide +kernel,
      by decide +kernel⟩)
  rw [← hc]
  exact AddSubgroup.card_dvd_of_le (hK φ.range
    (imgPt_mem isoBls12381g1_ok hφ (t := (
      2030865155961116509134155787281635352134061243631337209565132656784514618363758120464861916240248556764744613064479,
      342975661381948122631059200694579285533400897750716886713796559864281246146275685302436609432286865241474890681489, _, _)) (by decide +kernel))
    (imgPt_mem isoBls12381g1_ok hφ (t := (
      1804294163998206688865965722135763759982190831946107261986208539888094217435875146109645913223148684343807284049344,
      461413748991045535862375723629038611708075380978351277739369527205242230420210228371246178890197681488178634395203, _, _)) (by decide +kernel)))

theorem bls_range_52437899 {φ : (wGroup bls12381g1_p isoBls12381g1.e0).Point →+ (wGroup bls12381g1_p isoBls12381g1.e1).Point}
    (hφ : ∀ A, IsoImage isoBls12381g1 A (φ A)) : 52437899 ^ 2 ∣ Nat.card φ.range := by
  obtain ⟨H, hc, -, hK⟩ := Inst.bls_rank_two' 52437899
    2364401740487454359361094436613137927290720659468285607289929449223701631746280332596826142298605883679075652506696
    1117428618846614583671878387867186790204159005694441875211846439028877775086603205620993244496028802928196508916183
    3554708842602748802519368814235181929546882445843003140144424689672193299048571154818075318741785536687402027051326
    (by norm_num) (by decide +kernel) (by decide +kernel) (by decide +kernel) (by decide +kernel) (by decide +kernel) (by decide +kernel)
    (Or.inl (by norm_num))
  rw [← hc]
  exact AddSubgroup.card_dvd_of_le (hK φ.range
    (imgPt_mem isoBls12381g1_ok hφ (t := (
      776666344781843641302973891573582469237274588745088245791002756317910156171039897676950023984779518548821133138593,
      2003715451004176732294230272234429676872268703706676029140877186455227615805449728488169163193962760857179364137095, _, _)) (by decide +kernel))
    (imgPt_mem isoBls12381g1_ok hφ (t := (
      2395899131774383022731962575427030705398147114620880665385806664994752731525400509091235623803287258361515021045861,
      177891798560689563297850127974721926935453534598230246803818687199479282121394186709397985190768197069300312591728, _, _)) (by decide +kernel)))

theorem eq_of_bounds {c N k b : ℕ} (hk : c = N * k) (hle : c ≤ b) (hodd : ¬ 2 ∣ c) (hpos : 0 < c) (hb : b < N * 3) : c = N := by
  subst hk
  have hk3 : k < 3 := by
    by_contra hge
    have : N * 3 ≤ N * k := Nat.mul_le_mul_left _ (by omega)
    omega
  have hk2 : k ≠ 2 := by rintro rfl; exact hodd (Dvd.intro_left _ rfl)
  have hk0 : k ≠ 0 := by rintro rfl; simp at hpos
  have : k = 1 := by omega
  rw [this, mul_one]

/-- The two curves have the same number of points. -/
theorem card_bls_iso : Nat.card (wGroup bls12381g1_p isoBls12381g1.e0).Point = Inst.blsN := by
  have hv := bls12381g1_11iso_valid
  obtain ⟨φ, hφ⟩ := isoBls12381g1_hom
  change Nat.card (wGroup bls12381g1_p bls12381g1_11iso).Point = Inst.blsN
  haveI : Finite (wGroup bls12381g1_p bls12381g1_11iso).Point := Inst.w_finite hv.curve
  have hrange : Nat.card φ.range ∣ Nat.card (wGroup bls12381g1_p bls12381g1_11iso).Point :=
    AddSubgroup.card_range_dvd φ
  obtain ⟨-, A, -, -, hA⟩ := hv.generator
  have hr : bls12381g1_11iso.r ∣ Nat.card (wGroup bls12381g1_p bls12381g1_11iso).Point := by
    have : addOrderOf A = bls12381g1_11iso.r := hA
    exact this ▸ addOrderOf_dvd_natCard A
  have h3 : 3 ∣ Nat.card (wGroup bls12381g1_p bls12381g1_11iso).Point := by
    obtain ⟨hh, e1⟩ := wTors_spec hv
      (x := fe bls12381g1_p 120511285767916088733488444073658405736303806691529241888908097198013692928316544176832797037077148781885242038628)
      (y := fe bls12381g1_p 2794575730605836945077754325823919607592358198050836843287777717984589194643567223204419721941873947851872067111240) (k := 3) (b := true)
      (canon_fe (by decide +kernel)) (canon_fe (by decide +kernel)) (by decide +kernel) (by decide +kernel)
    haveI : Fact (Nat.Prime 3) := ⟨Nat.prime_three⟩
    have := addOrderOf_eq_prime (e1.2 rfl) (WeierstrassCurve.Affine.Point.some_ne_zero _)
    exact this ▸ addOrderOf_dvd_natCard _
  have h11 : 11 ^ 2 ∣ Nat.card (wGroup bls12381g1_p bls12381g1_11iso).Point := by
    obtain ⟨-, B, -, hB⟩ := Inst.bls_iso_121
    exact hB ▸ addOrderOf_dvd_natCard B
  have hN : bls12381g1_11iso.r * (3 * (11 ^ 2 * (10177 ^ 2 * (859267 ^ 2 * 52437899 ^ 2)))) ∣
      Nat.card (wGroup bls12381g1_p bls12381g1_11iso).Point := by
    refine Nat.Coprime.mul_dvd_of_dvd_of_dvd (by decide +kernel) hr ?_
    refine Nat.Coprime.mul_dvd_of_dvd_of_dvd (by decide +kernel) h3 ?_
    refine Nat.Coprime.mul_dvd_of_dvd_of_dvd (by decide +kernel) h11 ?_
    refine Nat.Coprime.mul_dvd_of_dvd_of_dvd (by decide +kernel) ((bls_range_10177 hφ).trans hrange) ?_
    exact Nat.Coprime.mul_dvd_of_dvd_of_dvd (by decide +kernel) ((bls_range_859267 hφ).trans hrange)
      ((bls_range_52437899 hφ).trans hrange)
  have hNe : bls12381g1_11iso.r * (3 * (11 ^ 2 * (10177 ^ 2 * (859267 ^ 2 * 52437899 ^ 2)))) = Inst.blsN := by decide +kernel
  rw [hNe] at hN
  obtain ⟨k, hk⟩ := hN
  have hle := Count.card_le hv.curve.odd (wGroup bls12381g1_p bls12381g1_11iso) rfl rfl
  have hodd := Inst.w_odd hv
  have hpos : 0 < Nat.card (wGroup bls12381g1_p bls12381g1_11iso).Point := Nat.card_pos
  exact eq_of_bounds hk hle hodd hpos (by decide +kernel)

/-- Multiplying by eleven times the cofactor kills everything but the part of order `r`. -/
theorem bls_iso_kill (A : (wGroup bls12381g1_p isoBls12381g1.e0).Point) :
    (isoBls12381g1.e0.r * (11 * isoBls12381g1.e0.h)) • A = 0 := by
  obtain ⟨φ, hφ⟩ := isoBls12381g1_hom
  have h1 : (isoBls12381g1.e1.r * isoBls12381g1.e1.h) • φ A = 0 := Inst.kill_bls (φ A)
  have h2 : (isoBls12381g1.e0.r * isoBls12381g1.e0.h) • A ∈ φ.ker := by
    rw [AddMonoidHom.mem_ker, map_nsmul]
    exact h1
  have h3 := addOrderOf_dvd_natCard (⟨_, h2⟩ : φ.ker)
  rw [bls_ker φ hφ, addOrderOf_dvd_iff_nsmul_eq_zero] at h3
  have h4 : 11 • (isoBls12381g1.e0.r * isoBls12381g1.e0.h) • A = 0 := congrArg Subtype.val h3
  rw [← mul_smul] at h4
  rw [← h4]
  congr 1

/-- C68, points: `BLS12381G1_11ISO` and `BLS12381G1` both have `(1 - x)² / 3 · get_order()` points, `x = -blsX`. -/
theorem _root_.Redox.Props.C68_points : ∃ (_ : Fact Inst.blsP.Prime) (e0 e1 : Weierstrass.Curve),
    BLS12381G1_11ISO = R.ok e0 ∧ BLS12381G1 = R.ok e1 ∧
    Nat.card (wGroup Inst.blsP e0).Point = (Inst.blsX + 1) ^ 2 / 3 * e0.getOrder ∧
    Nat.card (wGroup Inst.blsP e1).Point = (Inst.blsX + 1) ^ 2 / 3 * e1.getOrder ∧ e0.getOrder = e1.getOrder := by
  rw [Inst.bls_p_eq]
  refine ⟨inferInstance, _, _, bls12381g1_11iso_eq, bls12381g1_eq, ?_, ?_, by decide +kernel⟩
  · exact card_bls_iso.trans (by decide +kernel)
  · exact Inst.card_bls.trans (by decide +kernel)

/-- C68, clearing: on `BLS12381G1_11ISO`, where `get_cofactor()` does not clear the cofactor (`C58_bls_iso_refuted`), eleven times
`get_cofactor()` does, for every point and in every build profile. -/
theorem _root_.Redox.Props.C68_clear : ∃ (_ : Fact Inst.blsP.Prime) (e : Weierstrass.Curve),
    BLS12381G1_11ISO = R.ok e ∧ ∃ G g, e.getGenerator = R.ok G ∧ WDenotes Inst.blsP e G g ∧
      ∀ (prof : Profile) (P : Point) (A : (wGroup Inst.blsP e).Point), WDenotes Inst.blsP e P A →
        ∃ n : ℤ, WReturns Inst.blsP e (do P.mul prof (← e.newScalar (11 * e.getCofactor))) (n • g) := by
  rw [Inst.bls_p_eq]
  have hv := bls12381g1_11iso_valid
  haveI : Finite (wGroup bls12381g1_p bls12381g1_11iso).Point := Inst.w_finite hv.curve
  obtain ⟨G, g, hG, hg, ho⟩ := hv.generator
  refine ⟨inferInstance, _, bls12381g1_11iso_eq, G, g, hG, hg, fun prof P A hP => ?_⟩
  have hc : ¬ bls12381g1_11iso.r * bls12381g1_11iso.r ∣ Nat.card (wGroup bls12381g1_p bls12381g1_11iso).Point := by
    rw [show Nat.card (wGroup bls12381g1_p bls12381g1_11iso).Point = _ from card_bls_iso]
    decide +kernel
  obtain ⟨-, n, hn⟩ := Cof.cleared (r := bls12381g1_11iso.r) (h := 11 * bls12381g1_11iso.h) hv.order_prime ho bls_iso_kill hc A
  refine ⟨n, ?_⟩
  have hr1 : 1 ≤ bls12381g1_11iso.r := hv.order_prime.one_le
  have hlt : 11 * bls12381g1_11iso.h < bls12381g1_11iso.r := by decide +kernel
  have hlt' : (11 * (bls12381g1_11iso.h : ℤ)) < bls12381g1_11iso.r := by exact_mod_cast hlt
  simp only [Weierstrass.Curve.newScalar, scalar_new_eq _ hr1, R.ok_bind, Weierstrass.Curve.getCofactor]
  rw [Int.emod_eq_of_lt (by omega) hlt', ← hn, ← natCast_zsmul, Nat.cast_mul]
  exact C25_mul_partial _ _ hv.curve hv.complete hv.order_bits prof P A hP ⟨11 * bls12381g1_11iso.h, bls12381g1_11iso.r⟩
    ⟨rfl, by simp, hlt'⟩ (Or.inl (by decide +kernel))

/-- Such a point: the one of order 121 that `get_cofactor()` does not clear. -/
example : ∃ P A, WDenotes bls12381g1_p bls12381g1_11iso P A ∧ addOrderOf A = 11 ^ 2 := by
  obtain ⟨P, A, h, h'⟩ := Inst.bls_iso_121
  exact ⟨P, A, h, h'⟩

end Redox.Props.Isog
