import Verif.Props.Subgroup
import Verif.Props.SumProps

/-!
# C103: verification with and without the cofactor

A verifier gets the key `X` and the commitment `K` from outside, and on a curve with a cofactor they need not be multiples of the generator.
-/

set_option linter.unusedSectionVars false
set_option maxRecDepth 100000

namespace Redox.Props.CofVerify

open Spec Redox.Inst

section group
variable {G : Type*} [AddCommGroup G]

theorem coprime_of_lt {h r : ℕ} (hr : r.Prime) (h0 : h ≠ 0) (hlt : h < r) : IsCoprime (h : ℤ) r :=
  Int.isCoprime_iff_gcd_eq_one.2 (by
    rw [Int.gcd_natCast_natCast]
    exact (Nat.coprime_of_lt_prime h0 hlt hr).symm)

/-- An element killed by `h` and a multiple of an element of order `r` are equal only if both are zero. -/
theorem split_iff {h r : ℕ} (hc : IsCoprime (h : ℤ) r) {g : G} (hg : addOrderOf g = r) (n : ℤ) (w : G) (hw : h • w = 0) :
    n • g = w ↔ (r : ℤ) ∣ n ∧ w = 0 := by
  have hg0 : (r : ℤ) • g = 0 := by rw [natCast_zsmul, ← hg, addOrderOf_nsmul_eq_zero]
  have hw0 : (h : ℤ) • w = 0 := by rw [natCast_zsmul, hw]
  have hn : n • g = 0 ↔ (r : ℤ) ∣ n := by rw [← hg, addOrderOf_dvd_iff_zsmul_eq_zero]
  constructor
  · intro hnw
    obtain ⟨i, j, hij⟩ := hc
    have : w = 0 := by
      have h1 : (r : ℤ) • w = 0 := by rw [← hnw, smul_comm, hg0, smul_zero]
      rw [← one_zsmul w, ← hij, add_zsmul, mul_smul, mul_smul, hw0, h1, smul_zero, smul_zero, add_zero]
    exact ⟨hn.1 (hnw.trans this), this⟩
  · rintro ⟨h1, rfl⟩
    exact hn.2 h1

theorem strict_iff {h r : ℕ} (hc : IsCoprime (h : ℤ) r) {g : G} (hg : addOrderOf g = r) (s k c x : ℤ) (t u : G) (ht : h • t = 0)
    (hu : h • u = 0) : s • g = (k • g + u) + (c % r) • (x • g + t) ↔ (r : ℤ) ∣ s - (k + c * x) ∧ u + (c % r) • t = 0 := by
  have h1 : s • g = (k • g + u) + (c % r) • (x • g + t) ↔ (s - (k + c % r * x)) • g = u + (c % r) • t := by
    rw [smul_add, smul_smul, sub_zsmul, add_zsmul, ← sub_eq_add_neg, sub_eq_iff_eq_add]
    constructor <;> intro h <;> rw [h] <;> abel
  have h2 : (r : ℤ) ∣ s - (k + c % r * x) ↔ (r : ℤ) ∣ s - (k + c * x) := by
    refine Int.dvd_iff_dvd_of_dvd_sub ⟨c / r * x, ?_⟩
    have := Int.emod_add_mul_ediv c r
    linear_combination (-x) * this
  rw [h1, split_iff hc hg _ _ (by rw [smul_add, hu, smul_comm, ht, smul_zero, zero_add]), h2]

theorem cof_iff {h r : ℕ} (hc : IsCoprime (h : ℤ) r) {g : G} (hg : addOrderOf g = r) (s k c x : ℤ) (t u : G) (ht : h • t = 0)
    (hu : h • u = 0) : (h : ℤ) • s • g = (h : ℤ) • ((k • g + u) + (c % r) • (x • g + t)) ↔ (r : ℤ) ∣ s - (k + c * x) := by
  have h1 := strict_iff hc hg (h * s) (h * k) c (h * x) (0 : G) 0 (smul_zero _) (smul_zero _)
  rw [smul_zero, add_zero, add_zero, add_zero, and_iff_left rfl] at h1
  have e1 : (h : ℤ) • ((k • g + u) + (c % r) • (x • g + t)) = (h * k) • g + (c % r) • ((h * x) • g) := by
    rw [smul_add, smul_add, natCast_zsmul u, hu, add_zero, smul_comm (h : ℤ) (c % r), smul_add, natCast_zsmul t, ht, add_zero, smul_smul,
      smul_smul (h : ℤ) x]
  rw [e1, smul_smul, h1]
  have e2 : (h : ℤ) * s - (h * k + c * (h * x)) = h * (s - (k + c * x)) := by ring
  rw [e2]
  exact ⟨fun hd => hc.symm.dvd_of_dvd_mul_left hd, fun hd => Dvd.dvd.mul_left hd _⟩

theorem decompose {h r : ℕ} (hc : IsCoprime (h : ℤ) r) {g : G} (hg : addOrderOf g = r) (A : G) (n : ℤ) (hn : (h : ℤ) • A = n • g) :
    ∃ (x : ℤ) (w : G), A = x • g + w ∧ (h : ℤ) • w = 0 := by
  obtain ⟨i, j, hij⟩ := hc
  refine ⟨n * i, A - (n * i) • g, by abel, ?_⟩
  rw [smul_sub, hn, smul_smul, sub_eq_zero, Inst.smul_eq_iff hg]
  exact ⟨n * j, by linear_combination (-n) * hij⟩

end group

section
variable (p : ℕ) [Fact p.Prime]

/-- C103, Weierstrass: for a key `X` and a commitment `K` that are any points of the form "multiple of the generator plus a point killed by the cofactor",
the check `G * s == K + X * c` accepts exactly if `s ≡ k + c x` modulo the order and the two extra points cancel, and the check with both sides
multiplied by the cofactor accepts exactly if `s ≡ k + c x`. Nothing panics (release profile, or neither `c` nor `s` is zero). -/
theorem _root_.Redox.Props.C103_weierstrass (e : Weierstrass.Curve) (h : WValid p e) (hh : e.getCofactor < e.getOrder) (hh0 : e.getCofactor ≠ 0) :
    ∃ G g, e.getGenerator = R.ok G ∧ WDenotes p e G g ∧ ∀ (prof : Profile) (X K : Weierstrass.Point) (x k : ℤ) (t u : (wGroup p e).Point),
      WDenotes p e X (x • g + t) → WDenotes p e K (k • g + u) → e.getCofactor • t = 0 → e.getCofactor • u = 0 →
      ∀ c s : ℤ, (¬ (e.getOrder : ℤ) ∣ c ∧ ¬ (e.getOrder : ℤ) ∣ s) ∨ prof = .release →
        (∃ b, (do (← G.mul prof (← e.newScalar s)).eq (← K.add (← X.mul prof (← e.newScalar c)))) = R.ok b ∧
          (b = true ↔ (e.getOrder : ℤ) ∣ s - (k + c * x) ∧ u + (c % e.getOrder) • t = 0)) ∧
        (∃ b, (do
            let f ← e.newScalar e.getCofactor
            let L ← (← G.mul prof (← e.newScalar s)).mul prof f
            let Q ← (← K.add (← X.mul prof (← e.newScalar c))).mul prof f
            L.eq Q) = R.ok b ∧
          (b = true ↔ (e.getOrder : ℤ) ∣ s - (k + c * x))) := by
  obtain ⟨G, g, hG, hg, ho⟩ := h.generator
  have hrp := h.order_prime
  simp only [Weierstrass.Curve.getOrder, Weierstrass.Curve.getCofactor] at hh hh0 ho hrp ⊢
  have hr1 : 1 ≤ e.r := hrp.one_le
  have hr0 : (0 : ℤ) < e.r := by exact_mod_cast hr1
  have hh0 : e.h ≠ 0 := by exact_mod_cast hh0
  have hh : e.h < e.r := by exact_mod_cast hh
  have hc := coprime_of_lt hrp hh0 hh
  have hsm : ∀ n : ℤ, (n % e.r) • g = n • g := fun n => by
    rw [Inst.smul_eq_iff ho]
    exact ⟨-(n / e.r), by linear_combination Int.emod_add_mul_ediv n e.r⟩
  have key : ∀ (prof : Profile) P B (n : ℤ), WDenotes p e P B → (¬ (e.r : ℤ) ∣ n ∨ prof = .release) →
      ∃ S, P.mul prof ⟨n % e.r, e.r⟩ = R.ok S ∧ WDenotes p e S ((n % e.r) • B) := fun prof P B n hP hn =>
    C25_mul_partial p e h.curve h.complete h.order_bits prof P B hP ⟨n % e.r, e.r⟩ ⟨rfl, Int.emod_nonneg _ hr0.ne', Int.emod_lt_of_pos _ hr0⟩
      (hn.imp (fun h h' => h (Int.dvd_of_emod_eq_zero h')) id)
  refine ⟨G, g, hG, hg, fun prof X K x k t u hX hK ht hu c s h0 => ?_⟩
  rw [natCast_zsmul] at ht hu
  obtain ⟨S, eS, dS⟩ := key prof G g s hg (h0.imp And.right id)
  obtain ⟨C, eC, dC⟩ := key prof X _ c hX (h0.imp And.left id)
  obtain ⟨V, eV, dV⟩ := (C23_group_law p e h.curve h.complete K C _ _ hK dC).1
  rw [hsm] at dS
  have hhz : ((e.h : ℕ) : ℤ) % e.r = e.h := Int.emod_eq_of_lt (by omega) (by exact_mod_cast hh)
  have hhd : ¬ (e.r : ℤ) ∣ (e.h : ℕ) := fun hd => hh0 (Nat.eq_zero_of_dvd_of_lt (Int.natCast_dvd_natCast.1 hd) hh)
  obtain ⟨L, eL, dL⟩ := key prof S _ e.h dS (Or.inl hhd)
  obtain ⟨Q, eQ, dQ⟩ := key prof V _ e.h dV (Or.inl hhd)
  rw [hhz] at dL dQ
  constructor
  · refine ⟨decide (s • g = (k • g + u) + (c % e.r) • (x • g + t)), by
      simp only [Weierstrass.Curve.newScalar, scalar_new_eq e.r hr1, R.ok_bind, eS, eC, eV, C27_eq p e _ _ _ _ dS dV], ?_⟩
    rw [decide_eq_true_iff]
    exact strict_iff hc ho s k c x t u ht hu
  · refine ⟨decide ((e.h : ℤ) • s • g = (e.h : ℤ) • ((k • g + u) + (c % e.r) • (x • g + t))), by
      simp only [Weierstrass.Curve.newScalar, scalar_new_eq e.r hr1, R.ok_bind, eS, eC, eV, eL, eQ, C27_eq p e _ _ _ _ dL dQ], ?_⟩
    rw [decide_eq_true_iff]
    exact cof_iff hc ho s k c x t u ht hu

/-- C103, Montgomery: for a key `X` and a commitment `K` that are any points of the form "multiple of the generator plus a point killed by the cofactor",
the check `G * s == K + X * c` accepts exactly if `s ≡ k + c x` modulo the order and the two extra points cancel, and the check with both sides
multiplied by the cofactor accepts exactly if `s ≡ k + c x`. Nothing panics (release profile, or neither `c` nor `s` is zero). -/
theorem _root_.Redox.Props.C103_montgomery (e : Montgomery.Curve) (h : MValid p e) (hh : e.getCofactor < e.getOrder) (hh0 : e.getCofactor ≠ 0) :
    ∃ G g, e.getGenerator = R.ok G ∧ MDenotes p e G g ∧ ∀ (prof : Profile) (X K : Montgomery.Point) (x k : ℤ) (t u : (mGroup p e).Point),
      MDenotes p e X (x • g + t) → MDenotes p e K (k • g + u) → e.getCofactor • t = 0 → e.getCofactor • u = 0 →
      ∀ c s : ℤ, (¬ (e.getOrder : ℤ) ∣ c ∧ ¬ (e.getOrder : ℤ) ∣ s) ∨ prof = .release →
        (∃ b, (do (← G.mul prof (← e.newScalar s)).eq (← K.add (← X.mul prof (← e.newScalar c)))) = R.ok b ∧
          (b = true ↔ (e.getOrder : ℤ) ∣ s - (k + c * x) ∧ u + (c % e.getOrder) • t = 0)) ∧
        (∃ b, (do
            let f ← e.newScalar e.getCofactor
            let L ← (← G.mul prof (← e.newScalar s)).mul prof f
            let Q ← (← K.add (← X.mul prof (← e.newScalar c))).mul prof f
            L.eq Q) = R.ok b ∧
          (b = true ↔ (e.getOrder : ℤ) ∣ s - (k + c * x))) := by
  obtain ⟨G, g, hG, hg, ho⟩ := h.generator
  have hrp := h.order_prime
  simp only [Montgomery.Curve.getOrder, Montgomery.Curve.getCofactor] at hh hh0 ho hrp ⊢
  have hr1 : 1 ≤ e.r := hrp.one_le
  have hr0 : (0 : ℤ) < e.r := by exact_mod_cast hr1
  have hh0 : e.h ≠ 0 := by exact_mod_cast hh0
  have hh : e.h < e.r := by exact_mod_cast hh
  have hc := coprime_of_lt hrp hh0 hh
  have hsm : ∀ n : ℤ, (n % e.r) • g = n • g := fun n => by
    rw [Inst.smul_eq_iff ho]
    exact ⟨-(n / e.r), by linear_combination Int.emod_add_mul_ediv n e.r⟩
  have key : ∀ (prof : Profile) P B (n : ℤ), MDenotes p e P B → (¬ (e.r : ℤ) ∣ n ∨ prof = .release) →
      ∃ S, P.mul prof ⟨n % e.r, e.r⟩ = R.ok S ∧ MDenotes p e S ((n % e.r) • B) := fun prof P B n hP hn =>
    C33_mul_partial p e h.curve h.b_one h.complete h.order_bits prof P B hP ⟨n % e.r, e.r⟩ ⟨rfl, Int.emod_nonneg _ hr0.ne', Int.emod_lt_of_pos _ hr0⟩
      (hn.imp (fun h h' => h (Int.dvd_of_emod_eq_zero h')) id)
  refine ⟨G, g, hG, hg, fun prof X K x k t u hX hK ht hu c s h0 => ?_⟩
  rw [natCast_zsmul] at ht hu
  obtain ⟨S, eS, dS⟩ := key prof G g s hg (h0.imp And.right id)
  obtain ⟨C, eC, dC⟩ := key prof X _ c hX (h0.imp And.left id)
  obtain ⟨V, eV, dV⟩ := (C32_group_law_partial p e h.curve h.b_one h.complete K C _ _ hK dC).1
  rw [hsm] at dS
  have hhz : ((e.h : ℕ) : ℤ) % e.r = e.h := Int.emod_eq_of_lt (by omega) (by exact_mod_cast hh)
  have hhd : ¬ (e.r : ℤ) ∣ (e.h : ℕ) := fun hd => hh0 (Nat.eq_zero_of_dvd_of_lt (Int.natCast_dvd_natCast.1 hd) hh)
  obtain ⟨L, eL, dL⟩ := key prof S _ e.h dS (Or.inl hhd)
  obtain ⟨Q, eQ, dQ⟩ := key prof V _ e.h dV (Or.inl hhd)
  rw [hhz] at dL dQ
  constructor
  · refine ⟨decide (s • g = (k • g + u) + (c % e.r) • (x • g + t)), by
      simp only [Montgomery.Curve.newScalar, scalar_new_eq e.r hr1, R.ok_bind, eS, eC, eV, (C32_eq p e _ _ _ _ dS dV).1], ?_⟩
    rw [decide_eq_true_iff]
    exact strict_iff hc ho s k c x t u ht hu
  · refine ⟨decide ((e.h : ℤ) • s • g = (e.h : ℤ) • ((k • g + u) + (c % e.r) • (x • g + t))), by
      simp only [Montgomery.Curve.newScalar, scalar_new_eq e.r hr1, R.ok_bind, eS, eC, eV, eL, eQ, (C32_eq p e _ _ _ _ dL dQ).1], ?_⟩
    rw [decide_eq_true_iff]
    exact cof_iff hc ho s k c x t u ht hu

/-- C103, Edwards: for a key `X` and a commitment `K` that are any points of the form "multiple of the generator plus a point killed by the cofactor",
the check `G * s == K + X * c` accepts exactly if `s ≡ k + c x` modulo the order and the two extra points cancel, and the check with both sides
multiplied by the cofactor accepts exactly if `s ≡ k + c x`. Nothing panics (release profile, or neither `c` nor `s` is zero). -/
theorem _root_.Redox.Props.C103_edwards (e : Edwards.Curve) (h : EValid p e) [ECurve p e] (hh : e.getCofactor < e.getOrder) (hh0 : e.getCofactor ≠ 0) :
    ∃ G g, e.getGenerator = R.ok G ∧ EDenotes p e G g ∧ ∀ (prof : Profile) (X K : Edwards.Point) (x k : ℤ) (t u : eGroup p e),
      EDenotes p e X (x • g + t) → EDenotes p e K (k • g + u) → e.getCofactor • t = 0 → e.getCofactor • u = 0 →
      ∀ c s : ℤ, (¬ (e.getOrder : ℤ) ∣ c ∧ ¬ (e.getOrder : ℤ) ∣ s) ∨ prof = .release →
        (∃ b, (do (← G.mul prof (← e.newScalar s)).eq (← K.add (← X.mul prof (← e.newScalar c)))) = R.ok b ∧
          (b = true ↔ (e.getOrder : ℤ) ∣ s - (k + c * x) ∧ u + (c % e.getOrder) • t = 0)) ∧
        (∃ b, (do
            let f ← e.newScalar e.getCofactor
            let L ← (← G.mul prof (← e.newScalar s)).mul prof f
            let Q ← (← K.add (← X.mul prof (← e.newScalar c))).mul prof f
            L.eq Q) = R.ok b ∧
          (b = true ↔ (e.getOrder : ℤ) ∣ s - (k + c * x))) := by
  obtain ⟨G, g, hG, hg, ho⟩ := h.generator
  have hrp := h.order_prime
  simp only [Edwards.Curve.getOrder, Edwards.Curve.getCofactor] at hh hh0 ho hrp ⊢
  have hr1 : 1 ≤ e.r := hrp.one_le
  have hr0 : (0 : ℤ) < e.r := by exact_mod_cast hr1
  have hh0 : e.h ≠ 0 := by exact_mod_cast hh0
  have hh : e.h < e.r := by exact_mod_cast hh
  have hc := coprime_of_lt hrp hh0 hh
  have hsm : ∀ n : ℤ, (n % e.r) • g = n • g := fun n => by
    rw [Inst.smul_eq_iff ho]
    exact ⟨-(n / e.r), by linear_combination Int.emod_add_mul_ediv n e.r⟩
  have key : ∀ (prof : Profile) P B (n : ℤ), EDenotes p e P B → (¬ (e.r : ℤ) ∣ n ∨ prof = .release) →
      ∃ S, P.mul prof ⟨n % e.r, e.r⟩ = R.ok S ∧ EDenotes p e S ((n % e.r) • B) := fun prof P B n hP hn =>
    C37_mul_partial p e h.order_bits prof P B hP ⟨n % e.r, e.r⟩ ⟨rfl, Int.emod_nonneg _ hr0.ne', Int.emod_lt_of_pos _ hr0⟩
      (hn.imp (fun h h' => h (Int.dvd_of_emod_eq_zero h')) id)
  refine ⟨G, g, hG, hg, fun prof X K x k t u hX hK ht hu c s h0 => ?_⟩
  rw [natCast_zsmul] at ht hu
  obtain ⟨S, eS, dS⟩ := key prof G g s hg (h0.imp And.right id)
  obtain ⟨C, eC, dC⟩ := key prof X _ c hX (h0.imp And.left id)
  obtain ⟨V, eV, dV⟩ := (C36_group_law p e K C _ _ hK dC).1
  rw [hsm] at dS
  have hhz : ((e.h : ℕ) : ℤ) % e.r = e.h := Int.emod_eq_of_lt (by omega) (by exact_mod_cast hh)
  have hhd : ¬ (e.r : ℤ) ∣ (e.h : ℕ) := fun hd => hh0 (Nat.eq_zero_of_dvd_of_lt (Int.natCast_dvd_natCast.1 hd) hh)
  obtain ⟨L, eL, dL⟩ := key prof S _ e.h dS (Or.inl hhd)
  obtain ⟨Q, eQ, dQ⟩ := key prof V _ e.h dV (Or.inl hhd)
  rw [hhz] at dL dQ
  constructor
  · refine ⟨decide (s • g = (k • g + u) + (c % e.r) • (x • g + t)), by
      simp only [Edwards.Curve.newScalar, scalar_new_eq e.r hr1, R.ok_bind, eS, eC, eV, C36_eq p e _ _ _ _ dS dV], ?_⟩
    rw [decide_eq_true_iff]
    exact strict_iff hc ho s k c x t u ht hu
  · refine ⟨decide ((e.h : ℤ) • s • g = (e.h : ℤ) • ((k • g + u) + (c % e.r) • (x • g + t))), by
      simp only [Edwards.Curve.newScalar, scalar_new_eq e.r hr1, R.ok_bind, eS, eC, eV, eL, eQ, C36_eq p e _ _ _ _ dL dQ], ?_⟩
    rw [decide_eq_true_iff]
    exact cof_iff hc ho s k c x t u ht hu

theorem _root_.Redox.Props.EdMap.wDenotes_unique {p : ℕ} [Fact p.Prime] {e : Weierstrass.Curve} {P : Weierstrass.Point} {A B : (wGroup p e).Point}
    (hA : WDenotes p e P A) (hB : WDenotes p e P B) : A = B := by
  classical
  have h1 := C27_eq p e P P A A hA hA
  have h2 := C27_eq p e P P A B hA hB
  rw [h1] at h2
  simpa using h2

end

/-- C103 on the named Weierstrass curves (except BLS12381G1_11ISO, C58): every point is a multiple of the generator plus a point killed by the cofactor, and the cofactor is below
the order, so C103_weierstrass says what both checks do for every key and every commitment. -/
theorem _root_.Redox.Props.C103_named_weierstrass : ∀ t ∈ Inst.clearList, ∃ (_ : Fact t.2.Prime) (e : Weierstrass.Curve), t.1 = R.ok e ∧
    WValid t.2 e ∧ e.getCofactor < e.getOrder ∧ e.getCofactor ≠ 0 ∧
    ∀ G g, e.getGenerator = R.ok G → WDenotes t.2 e G g → ∀ P A, WDenotes t.2 e P A →
      ∃ (x : ℤ) (w : _), A = x • g + w ∧ e.getCofactor • w = 0 := by
  have key : ∀ (c : R Weierstrass.Curve) (p : ℕ) [Fact p.Prime] (e : Weierstrass.Curve), (c, p) ∈ Inst.clearList → c = R.ok e → WValid p e →
      e.h < e.r → e.h ≠ 0 → ∃ (_ : Fact p.Prime) (e : Weierstrass.Curve), c = R.ok e ∧
    WValid p e ∧ e.getCofactor < e.getOrder ∧ e.getCofactor ≠ 0 ∧
    ∀ G g, e.getGenerator = R.ok G → WDenotes p e G g → ∀ P A, WDenotes p e P A →
      ∃ (x : ℤ) (w : _), A = x • g + w ∧ e.getCofactor • w = 0 := by
    intro c p _ e hm hc h hh hh0
    obtain ⟨_, e', he', G', g', hG', hg', hcl⟩ := C58_weierstrass_partial _ hm
    change c = _ at he'
    rw [hc, R.ok.injEq] at he'
    subst he'
    refine ⟨inferInstance, e, hc, h, by simp only [Weierstrass.Curve.getOrder, Weierstrass.Curve.getCofactor]; exact_mod_cast hh,
      by simp only [Weierstrass.Curve.getCofactor]; exact_mod_cast hh0, fun G g hG hg P A hP => ?_⟩
    rw [hG, R.ok.injEq] at hG'
    subst hG'
    obtain rfl := EdMap.wDenotes_unique hg hg'
    have ho : addOrderOf g = e.r := by
      obtain ⟨G', g', hG', hg', ho⟩ := h.generator
      rw [hG, R.ok.injEq] at hG'
      subst hG'
      rw [EdMap.wDenotes_unique hg hg']; exact ho
    have hr1 : 1 ≤ e.r := h.order_prime.one_le
    obtain ⟨n, Q, hQ, hQd⟩ := hcl .release P A hP
    obtain ⟨Q', hQ', hQd'⟩ := C25_mul_partial p e h.curve h.complete h.order_bits .release P A hP ⟨e.h, e.r⟩
      ⟨rfl, by simp, by simpa using hh⟩ (Or.inr rfl)
    simp only [Weierstrass.Curve.newScalar, scalar_new_eq e.r hr1, Weierstrass.Curve.getCofactor, R.ok_bind] at hQ
    rw [Int.emod_eq_of_lt (by omega) (by exact_mod_cast hh), hQ', R.ok.injEq] at hQ
    subst hQ
    have hn : (e.h : ℤ) • A = n • g := EdMap.wDenotes_unique hQd' hQd
    exact decompose (coprime_of_lt h.order_prime hh0 hh) ho A n hn
  rw [Inst.clearList, Inst.weierstrassList, Inst.p256_p_eq, Inst.p384_p_eq, Inst.p521_p_eq, Inst.secp256k1_p_eq, Inst.bls_p_eq]
  simp only [List.take, List.forall_mem_cons]
  exact ⟨key _ _ _ (by rw [Inst.clearList, Inst.weierstrassList, Inst.p256_p_eq, Inst.p384_p_eq, Inst.p521_p_eq, Inst.secp256k1_p_eq, Inst.bls_p_eq]; simp) p256_eq p256_valid (by decide +kernel) (by decide +kernel),
    key _ _ _ (by rw [Inst.clearList, Inst.weierstrassList, Inst.p256_p_eq, Inst.p384_p_eq, Inst.p521_p_eq, Inst.secp256k1_p_eq, Inst.bls_p_eq]; simp) p384_eq p384_valid (by decide +kernel) (by decide +kernel),
    key _ _ _ (by rw [Inst.clearList, Inst.weierstrassList, Inst.p256_p_eq, Inst.p384_p_eq, Inst.p521_p_eq, Inst.secp256k1_p_eq, Inst.bls_p_eq]; simp) p521_eq p521_valid (by decide +kernel) (by decide +kernel),
    key _ _ _ (by rw [Inst.clearList, Inst.weierstrassList, Inst.p256_p_eq, Inst.p384_p_eq, Inst.p521_p_eq, Inst.secp256k1_p_eq, Inst.bls_p_eq]; simp) secp256k1_eq secp256k1_valid (by decide +kernel) (by decide +kernel),
    key _ _ _ (by rw [Inst.clearList, Inst.weierstrassList, Inst.p256_p_eq, Inst.p384_p_eq, Inst.p521_p_eq, Inst.secp256k1_p_eq, Inst.bls_p_eq]; simp) secp256k1_3iso_eq secp256k1_3iso_valid (by decide +kernel) (by decide +kernel),
    key _ _ _ (by rw [Inst.clearList, Inst.weierstrassList, Inst.p256_p_eq, Inst.p384_p_eq, Inst.p521_p_eq, Inst.secp256k1_p_eq, Inst.bls_p_eq]; simp) bls12381g1_eq bls12381g1_valid (by decide +kernel) (by decide +kernel), by simp⟩

/-- C103 on the named Montgomery curves: every point is a multiple of the generator plus a point killed by the cofactor, and the cofactor is below
the order, so C103_montgomery says what both checks do for every key and every commitment. -/
theorem _root_.Redox.Props.C103_named_montgomery : ∀ t ∈ Inst.montgomeryList, ∃ (_ : Fact t.2.Prime) (e : Montgomery.Curve), t.1 = R.ok e ∧
    MValid t.2 e ∧ e.getCofactor < e.getOrder ∧ e.getCofactor ≠ 0 ∧
    ∀ G g, e.getGenerator = R.ok G → MDenotes t.2 e G g → ∀ P A, MDenotes t.2 e P A →
      ∃ (x : ℤ) (w : _), A = x • g + w ∧ e.getCofactor • w = 0 := by
  have key : ∀ (c : R Montgomery.Curve) (p : ℕ) [Fact p.Prime] (e : Montgomery.Curve), (c, p) ∈ Inst.montgomeryList → c = R.ok e → MValid p e →
      e.h < e.r → e.h ≠ 0 → ∃ (_ : Fact p.Prime) (e : Montgomery.Curve), c = R.ok e ∧
    MValid p e ∧ e.getCofactor < e.getOrder ∧ e.getCofactor ≠ 0 ∧
    ∀ G g, e.getGenerator = R.ok G → MDenotes p e G g → ∀ P A, MDenotes p e P A →
      ∃ (x : ℤ) (w : _), A = x • g + w ∧ e.getCofactor • w = 0 := by
    intro c p _ e hm hc h hh hh0
    obtain ⟨_, e', he', G', g', hG', hg', hcl⟩ := C58_montgomery _ hm
    change c = _ at he'
    rw [hc, R.ok.injEq] at he'
    subst he'
    refine ⟨inferInstance, e, hc, h, by simp only [Montgomery.Curve.getOrder, Montgomery.Curve.getCofactor]; exact_mod_cast hh,
      by simp only [Montgomery.Curve.getCofactor]; exact_mod_cast hh0, fun G g hG hg P A hP => ?_⟩
    rw [hG, R.ok.injEq] at hG'
    subst hG'
    obtain rfl := EdMap.mDenotes_unique hg hg'
    have ho : addOrderOf g = e.r := by
      obtain ⟨G', g', hG', hg', ho⟩ := h.generator
      rw [hG, R.ok.injEq] at hG'
      subst hG'
      rw [EdMap.mDenotes_unique hg hg']; exact ho
    have hr1 : 1 ≤ e.r := h.order_prime.one_le
    obtain ⟨n, Q, hQ, hQd⟩ := hcl .release P A hP
    obtain ⟨Q', hQ', hQd'⟩ := C33_mul_partial p e h.curve h.b_one h.complete h.order_bits .release P A hP ⟨e.h, e.r⟩
      ⟨rfl, by simp, by simpa using hh⟩ (Or.inr rfl)
    simp only [Montgomery.Curve.newScalar, scalar_new_eq e.r hr1, Montgomery.Curve.getCofactor, R.ok_bind] at hQ
    rw [Int.emod_eq_of_lt (by omega) (by exact_mod_cast hh), hQ', R.ok.injEq] at hQ
    subst hQ
    have hn : (e.h : ℤ) • A = n • g := EdMap.mDenotes_unique hQd' hQd
    exact decompose (coprime_of_lt h.order_prime hh0 hh) ho A n hn
  rw [Inst.montgomeryList, Inst.c25519_p_eq, Inst.c448_p_eq]
  simp only [List.forall_mem_cons]
  exact ⟨key _ _ _ (by rw [Inst.montgomeryList, Inst.c25519_p_eq, Inst.c448_p_eq]; simp) curve25519_eq curve25519_valid (by decide +kernel) (by decide +kernel),
    key _ _ _ (by rw [Inst.montgomeryList, Inst.c25519_p_eq, Inst.c448_p_eq]; simp) curve448_eq curve448_valid (by decide +kernel) (by decide +kernel), by simp⟩

/-- C103 on the named Edwards curves: every point is a multiple of the generator plus a point killed by the cofactor, and the cofactor is below
the order, so C103_edwards says what both checks do for every key and every commitment. -/
theorem _root_.Redox.Props.C103_named_edwards : ∀ t ∈ Inst.edwardsList, ∃ (_ : Fact t.2.Prime) (e : Edwards.Curve) (_ : ECurve t.2 e), t.1 = R.ok e ∧
    EValid t.2 e ∧ e.getCofactor < e.getOrder ∧ e.getCofactor ≠ 0 ∧
    ∀ G g, e.getGenerator = R.ok G → EDenotes t.2 e G g → ∀ P A, EDenotes t.2 e P A →
      ∃ (x : ℤ) (w : _), A = x • g + w ∧ e.getCofactor • w = 0 := by
  have key : ∀ (c : R Edwards.Curve) (p : ℕ) [Fact p.Prime] (e : Edwards.Curve) [ECurve p e], (c, p) ∈ Inst.edwardsList → c = R.ok e → EValid p e →
      e.h < e.r → e.h ≠ 0 → ∃ (_ : Fact p.Prime) (e : Edwards.Curve) (_ : ECurve p e), c = R.ok e ∧
    EValid p e ∧ e.getCofactor < e.getOrder ∧ e.getCofactor ≠ 0 ∧
    ∀ G g, e.getGenerator = R.ok G → EDenotes p e G g → ∀ P A, EDenotes p e P A →
      ∃ (x : ℤ) (w : _), A = x • g + w ∧ e.getCofactor • w = 0 := by
    intro c p _ e _ hm hc h hh hh0
    obtain ⟨_, e', _, he', G', g', hG', hg', hcl⟩ := C58_edwards _ hm
    change c = _ at he'
    rw [hc, R.ok.injEq] at he'
    subst he'
    refine ⟨inferInstance, e, inferInstance, hc, h, by simp only [Edwards.Curve.getOrder, Edwards.Curve.getCofactor]; exact_mod_cast hh,
      by simp only [Edwards.Curve.getCofactor]; exact_mod_cast hh0, fun G g hG hg P A hP => ?_⟩
    rw [hG, R.ok.injEq] at hG'
    subst hG'
    obtain rfl := EdMap.eDenotes_unique hg hg'
    have ho : addOrderOf g = e.r := by
      obtain ⟨G', g', hG', hg', ho⟩ := h.generator
      rw [hG, R.ok.injEq] at hG'
      subst hG'
      rw [EdMap.eDenotes_unique hg hg']; exact ho
    have hr1 : 1 ≤ e.r := h.order_prime.one_le
    obtain ⟨n, Q, hQ, hQd⟩ := hcl .release P A hP
    obtain ⟨Q', hQ', hQd'⟩ := C37_mul_partial p e h.order_bits .release P A hP ⟨e.h, e.r⟩
      ⟨rfl, by simp, by simpa using hh⟩ (Or.inr rfl)
    simp only [Edwards.Curve.newScalar, scalar_new_eq e.r hr1, Edwards.Curve.getCofactor, R.ok_bind] at hQ
    rw [Int.emod_eq_of_lt (by omega) (by exact_mod_cast hh), hQ', R.ok.injEq] at hQ
    subst hQ
    have hn : (e.h : ℤ) • A = n • g := EdMap.eDenotes_unique hQd' hQd
    exact decompose (coprime_of_lt h.order_prime hh0 hh) ho A n hn
  rw [Inst.edwardsList, Inst.c25519_p_eq, Inst.c448_p_eq]
  simp only [List.forall_mem_cons]
  have := edwards25519_valid.curve
  have := edwards448_valid.curve
  exact ⟨key _ _ _ (by rw [Inst.edwardsList, Inst.c25519_p_eq, Inst.c448_p_eq]; simp) edwards25519_eq edwards25519_valid (by decide +kernel) (by decide +kernel),
    key _ _ _ (by rw [Inst.edwardsList, Inst.c25519_p_eq, Inst.c448_p_eq]; simp) edwards448_eq edwards448_valid (by decide +kernel) (by decide +kernel), by simp⟩

/-- A key with a component of order two on `EDWARDS25519`: `X = G * 5 + (0, -1)`, `K = G * 3`. With the challenge 1 the check without the cofactor
rejects `s = 3 + 1 * 5` and the check with it accepts; with the challenge 2 both accept `s = 3 + 2 * 5`. -/
theorem _root_.Redox.Props.C103_edwards25519 : (do
    let e ← EDWARDS25519
    let g ← e.getGenerator
    let T ← e.newPoint (← e.getField.zero) (← (← e.getField.one).neg)
    let X ← (← g.mul .debug (← e.newScalar 5)).add T
    let K ← g.mul .debug (← e.newScalar 3)
    let f ← e.newScalar e.getCofactor
    let V1 ← K.add (← X.mul .debug (← e.newScalar 1))
    let V2 ← K.add (← X.mul .debug (← e.newScalar 2))
    let S1 ← g.mul .debug (← e.newScalar 8)
    let S2 ← g.mul .debug (← e.newScalar 13)
    return (← S1.eq V1, ← (← S1.mul .debug f).eq (← V1.mul .debug f), ← S2.eq V2, ← (← S2.mul .debug f).eq (← V2.mul .debug f))) =
      R.ok (false, true, true, true) := by decide +kernel

end Redox.Props.CofVerify
