import Verif.Props.InstanceProps
import Verif.Props.NamedMaps

/-!
# Concrete points used to instantiate the theorems

The modules of `Verif/Witness` apply every property theorem that has hypotheses to concrete values, with all hypotheses proved.
They use the generators of built-in curves and the doubles of these generators.
-/

set_option maxRecDepth 100000

namespace Redox.Witness

open Redox Redox.Spec Redox.Props Redox.Inst Redox.Props.Inst

/-- The value of a computation that does not panic. -/
def okOr {α : Type} (d : α) : R α → α
  | .ok a => a
  | .panic _ => d

/-- The value of a computation shown not to panic. -/
def okGet {α : Type} : (r : R α) → r.isOk = true → α
  | .ok a, _ => a

theorem okGet_eq {α : Type} (r : R α) (h : r.isOk = true) : r = R.ok (okGet r h) := by
  cases r with
  | ok a => rfl
  | panic e => cases h

/-! ## P-256 -/

/-- The generator of P-256, as the code represents it. -/
def wG : Weierstrass.Point := ⟨p256, ⟨p256.gx, p256.gy, ⟨1, ⟨p256_p⟩⟩⟩⟩

theorem wG_eq : p256.getGenerator = R.ok wG := by decide +kernel

theorem wG_spec : ∃ A : (wGroup p256_p p256).Point, WDenotes p256_p p256 wG A ∧ addOrderOf A = p256.getOrder := by
  obtain ⟨G, A, hG, hA, ho⟩ := p256_valid.generator
  rw [wG_eq] at hG
  cases hG
  exact ⟨A, hA, ho⟩

/-- The point of the curve that `wG` stands for. -/
noncomputable def wg : (wGroup p256_p p256).Point := wG_spec.choose

theorem wG_den : WDenotes p256_p p256 wG wg := wG_spec.choose_spec.1

theorem wg_order : addOrderOf wg = p256.getOrder := wG_spec.choose_spec.2

theorem wg_kill : p256.getOrder • wg = 0 := by rw [← wg_order]; exact addOrderOf_nsmul_eq_zero wg

theorem wg_kill_r : p256.r • wg = 0 := wg_kill

theorem ne_zero_of_order {G : Type*} [AddCommGroup G] {A : G} {r : ℕ} (h : addOrderOf A = r) (hr : r.Prime) : A ≠ 0 := by
  rintro rfl
  rw [addOrderOf_zero] at h
  exact hr.one_lt.ne h

theorem two_ne_zero_of_order {G : Type*} [AddCommGroup G] {A : G} {r : ℕ} (h : addOrderOf A = r) (hr : 2 < r) : A + A ≠ 0 := by
  rw [← two_nsmul]
  intro h2
  have := Nat.le_of_dvd two_pos (addOrderOf_dvd_of_nsmul_eq_zero h2)
  omega

theorem wg_ne : wg ≠ 0 := ne_zero_of_order wg_order p256_valid.order_prime

theorem wH_ret : ∃ S, wG.add wG = R.ok S ∧ WDenotes p256_p p256 S (wg + wg) :=
  (C23_group_law p256_p p256 p256_valid.curve p256_valid.complete wG wG wg wg wG_den wG_den).1

/-- Twice the generator of P-256, as the code computes it. -/
def wH : Weierstrass.Point := okOr wG (wG.add wG)

theorem wH_den : WDenotes p256_p p256 wH (wg + wg) := by
  obtain ⟨S, hS, hd⟩ := wH_ret
  rwa [wH, hS]

/-- Twice the generator, computed by scalar multiplication: the same point with other coordinates. -/
def wK : Weierstrass.Point := okOr wG (do wG.mul .debug (← p256.newScalar 2))

theorem wK_eq : wH.eq wK = R.ok true := by decide +kernel

theorem wK_den : ∃ A, WDenotes p256_p p256 wK A :=
  (C22_points p256_p p256 p256_valid.curve wK (by decide +kernel) ⟨by decide +kernel, by decide +kernel, by decide +kernel⟩
    ⟨by decide +kernel, by decide +kernel, by decide +kernel⟩ ⟨by decide +kernel, by decide +kernel, by decide +kernel⟩).2
    ⟨by decide +kernel, by decide +kernel⟩

theorem wg_some : ∃ hn, wg = .some (val p256_p p256.gx) (val p256_p p256.gy) hn := by
  have h := wG_den
  have h1 : val p256_p wG.c.z = 1 := by decide +kernel
  have h0 := wg_ne
  generalize wg = A at h h0 ⊢
  cases A with
  | zero => exact absurd rfl h0
  | some x y hn =>
    obtain ⟨-, -, -, -, -, hx, hy⟩ := h
    rw [h1, mul_one] at hx hy
    subst hx hy
    exact ⟨hn, rfl⟩

theorem wh_kill : p256.getOrder • (wg + wg) = 0 := by rw [nsmul_add, wg_kill, add_zero]

theorem wh_ne : wg + wg ≠ 0 := two_ne_zero_of_order wg_order (by decide +kernel)

/-! ## curve25519 -/

/-- The generator of curve25519, as the code represents it. -/
def mG : Montgomery.Point := ⟨curve25519, ⟨curve25519.gx, curve25519.gy, ⟨1, ⟨curve25519_p⟩⟩⟩⟩

theorem mG_eq : curve25519.getGenerator = R.ok mG := by decide +kernel

theorem mG_spec : ∃ A : (mGroup curve25519_p curve25519).Point,
    MDenotes curve25519_p curve25519 mG A ∧ addOrderOf A = curve25519.getOrder := by
  obtain ⟨G, A, hG, hA, ho⟩ := curve25519_valid.generator
  rw [mG_eq] at hG
  cases hG
  exact ⟨A, hA, ho⟩

/-- The point of the curve that `mG` stands for. -/
noncomputable def mg : (mGroup curve25519_p curve25519).Point := mG_spec.choose

theorem mG_den : MDenotes curve25519_p curve25519 mG mg := mG_spec.choose_spec.1

theorem mg_order : addOrderOf mg = curve25519.getOrder := mG_spec.choose_spec.2

theorem mg_kill : curve25519.getOrder • mg = 0 := by rw [← mg_order]; exact addOrderOf_nsmul_eq_zero mg

theorem mg_kill_r : curve25519.r • mg = 0 := mg_kill

theorem mg_ne : mg ≠ 0 := ne_zero_of_order mg_order curve25519_valid.order_prime

theorem mH_ret : ∃ S, mG.add mG = R.ok S ∧ MDenotes curve25519_p curve25519 S (mg + mg) :=
  (C32_group_law_partial curve25519_p curve25519 curve25519_valid.curve curve25519_valid.b_one curve25519_valid.complete
    mG mG mg mg mG_den mG_den).1

/-- Twice the generator of curve25519, as the code computes it. -/
def mH : Montgomery.Point := okOr mG (mG.add mG)

theorem mH_den : MDenotes curve25519_p curve25519 mH (mg + mg) := by
  obtain ⟨S, hS, hd⟩ := mH_ret
  rwa [mH, hS]

/-- Twice the generator, computed by scalar multiplication: the same point with other coordinates. -/
def mK : Montgomery.Point := okOr mG (do mG.mul .debug (← curve25519.newScalar 2))

theorem mK_eq : mH.eq mK = R.ok true := by decide +kernel

theorem mK_den : ∃ A, MDenotes curve25519_p curve25519 mK A :=
  (C53_points curve25519_p curve25519 curve25519_valid.curve curve25519_valid.b_one mK (by decide +kernel)
    ⟨by decide +kernel, by decide +kernel, by decide +kernel⟩
    ⟨by decide +kernel, by decide +kernel, by decide +kernel⟩ ⟨by decide +kernel, by decide +kernel, by decide +kernel⟩).2
    ⟨by decide +kernel, by decide +kernel⟩

theorem mg_some : ∃ hn, mg = .some (val curve25519_p curve25519.gx) (val curve25519_p curve25519.gy) hn := by
  have h := mG_den
  have h1 : val curve25519_p mG.c.z = 1 := by decide +kernel
  have h0 := mg_ne
  generalize mg = A at h h0 ⊢
  cases A with
  | zero => exact absurd rfl h0
  | some x y hn =>
    obtain ⟨-, -, -, -, -, hx, hy⟩ := h
    rw [h1, mul_one] at hx hy
    subst hx hy
    exact ⟨hn, rfl⟩

theorem mh_kill : curve25519.getOrder • (mg + mg) = 0 := by rw [nsmul_add, mg_kill, add_zero]

theorem mh_ne : mg + mg ≠ 0 := two_ne_zero_of_order mg_order (by decide +kernel)

/-! ## edwards25519 -/

instance : ECurve curve25519_p edwards25519 := edwards25519_valid.curve

/-- The generator of edwards25519, as the code represents it. -/
def eG : Edwards.Point :=
  ⟨edwards25519, ⟨edwards25519.gx, edwards25519.gy, ⟨edwards25519.gx.n * edwards25519.gy.n % curve25519_p, ⟨curve25519_p⟩⟩,
    ⟨1, ⟨curve25519_p⟩⟩⟩⟩

theorem eG_eq : edwards25519.getGenerator = R.ok eG := by decide +kernel

theorem eG_spec : ∃ A : eGroup curve25519_p edwards25519,
    EDenotes curve25519_p edwards25519 eG A ∧ addOrderOf A = edwards25519.getOrder := by
  obtain ⟨G, A, hG, hA, ho⟩ := edwards25519_valid.generator
  rw [eG_eq] at hG
  cases hG
  exact ⟨A, hA, ho⟩

/-- The point of the curve that `eG` stands for. -/
noncomputable def eg : eGroup curve25519_p edwards25519 := eG_spec.choose

theorem eG_den : EDenotes curve25519_p edwards25519 eG eg := eG_spec.choose_spec.1

theorem eg_order : addOrderOf eg = edwards25519.getOrder := eG_spec.choose_spec.2

theorem eg_kill : edwards25519.getOrder • eg = 0 := by rw [← eg_order]; exact addOrderOf_nsmul_eq_zero eg

theorem eg_kill_r : edwards25519.r • eg = 0 := eg_kill

theorem eg_ne : eg ≠ 0 := ne_zero_of_order eg_order edwards25519_valid.order_prime

theorem eH_ret : ∃ S, eG.add eG = R.ok S ∧ EDenotes curve25519_p edwards25519 S (eg + eg) :=
  (C36_group_law curve25519_p edwards25519 eG eG eg eg eG_den eG_den).1

/-- Twice the generator of edwards25519, as the code computes it. -/
def eH : Edwards.Point := okOr eG (eG.add eG)

theorem eH_den : EDenotes curve25519_p edwards25519 eH (eg + eg) := by
  obtain ⟨S, hS, hd⟩ := eH_ret
  rwa [eH, hS]

/-- Twice the generator, computed by scalar multiplication. -/
def eK : Edwards.Point := okOr eG (do eG.mul .debug (← edwards25519.newScalar 2))

theorem eK_eq : eH.eq eK = R.ok true := by decide +kernel

theorem eK_den : ∃ A, EDenotes curve25519_p edwards25519 eK A :=
  (C54_points curve25519_p edwards25519 eK (by decide +kernel) ⟨by decide +kernel, by decide +kernel, by decide +kernel⟩
    ⟨by decide +kernel, by decide +kernel, by decide +kernel⟩ ⟨by decide +kernel, by decide +kernel, by decide +kernel⟩
    ⟨by decide +kernel, by decide +kernel, by decide +kernel⟩).2
    (by decide +kernel)

theorem eh_kill : edwards25519.getOrder • (eg + eg) = 0 := by rw [nsmul_add, eg_kill, add_zero]

theorem eh_ne : eg + eg ≠ 0 := two_ne_zero_of_order eg_order (by decide +kernel)

/-! ## Discharging hypotheses -/

/-- `r ∤ k` for concrete numbers. -/
theorem not_dvd_of {r : ℕ} {k : ℤ} (h : k % (r : ℤ) ≠ 0) : ¬ (r : ℤ) ∣ k := fun hd => h (Int.emod_eq_zero_of_dvd hd)

theorem canon_of {p : ℕ} {x : FpElt} (h : x.f = ⟨p⟩ ∧ 0 ≤ x.n ∧ x.n < p) : Canon p x := ⟨h.1, h.2.1, h.2.2⟩

/-- Prove a hypothesis of a theorem at concrete values: by a known fact about the points above or by evaluation. -/
macro "meets" : tactic => `(tactic| first
  | with_reducible first
    | rfl
    | exact p256_valid | exact p256_valid.curve | exact p256_valid.complete | exact p256_valid.order_bits
    | exact wG_den | exact wH_den | exact wg_kill | exact wg_kill_r | exact wh_kill | exact wg_ne | exact wh_ne | exact wG_eq
    | exact ⟨_, wG_den⟩ | exact ⟨_, wH_den⟩ | exact wK_den | exact wK_eq
    | exact curve25519_valid | exact curve25519_valid.curve | exact curve25519_valid.complete | exact curve25519_valid.b_one
    | exact curve25519_valid.order_bits
    | exact mG_den | exact mH_den | exact mg_kill | exact mg_kill_r | exact mh_kill | exact mg_ne | exact mh_ne | exact mG_eq
    | exact ⟨_, mG_den⟩ | exact ⟨_, mH_den⟩ | exact mK_den | exact mK_eq
    | exact edwards25519_valid | exact edwards25519_valid.order_bits
    | exact eG_den | exact eH_den | exact eg_kill | exact eg_kill_r | exact eh_kill | exact eg_ne | exact eh_ne | exact eG_eq
    | exact ⟨_, eG_den⟩ | exact ⟨_, eH_den⟩ | exact eK_den | exact eK_eq
    | exact p256_p_prime | exact p256_r_prime | exact bls12381g1_p_prime
  | exact ⟨rfl, by decide +kernel, by decide +kernel⟩
  | exact ⟨rfl, ⟨rfl, by decide +kernel, by decide +kernel⟩, ⟨rfl, by decide +kernel, by decide +kernel⟩⟩
  | exact not_dvd_of (by decide +kernel)
  | exact Or.inl (not_dvd_of (by decide +kernel))
  | decide +kernel
  | rfl)

end Redox.Witness
