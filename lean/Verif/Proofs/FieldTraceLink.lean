import Mathlib.Tactic.Ring
import Verif.Model.FieldTrace

/-!
# Rules for the recorded field operations

`Does x s Q`: the computation `x` returns a value with `Q` after exactly the operations `s`.
-/

namespace Redox.FT

/-- `x` returns a value that satisfies `Q`, and calls exactly the operations `s`. -/
def Does {α : Type} (x : T α) (s : List FpOp) (Q : α → Prop) : Prop := ∃ a, x.out = R.ok a ∧ x.ops = s ∧ Q a

/-- The element belongs to the field `f`. -/
def In (f : Fp) (a : FpElt) : Prop := a.f = f

variable {f : Fp}

theorem bind_ok {α β : Type} {x : T α} {g : α → T β} {a : α} (h : x.out = R.ok a) : x >>= g = ⟨(g a).out, x.ops ++ (g a).ops⟩ := by
  show T.bind x g = _
  rw [T.bind, h]

theorem out_bind {α β : Type} (x : T α) (g : α → T β) : (x >>= g).out = x.out >>= fun a => (g a).out := by
  show (T.bind x g).out = _
  rw [T.bind]
  cases x.out <;> rfl

theorem out_pure {α : Type} (a : α) : (pure a : T α).out = R.ok a := rfl
theorem out_ok {α : Type} (a : α) : (T.ok a).out = R.ok a := rfl

theorem ops_bind {α β : Type} {x : T α} {g : α → T β} {s t : List FpOp} {Q : α → Prop} (hx : Does x s Q)
    (hg : ∀ a, Q a → (g a).ops = t) : (x >>= g).ops = s ++ t := by
  obtain ⟨a, ha, hs, hq⟩ := hx
  rw [bind_ok ha, hs, hg a hq]

theorem Does.bind {α β : Type} {x : T α} {g : α → T β} {s t : List FpOp} {Q : α → Prop} {Q' : β → Prop} (hx : Does x s Q)
    (hg : ∀ a, Q a → Does (g a) t Q') : Does (x >>= g) (s ++ t) Q' := by
  obtain ⟨a, ha, hs, hq⟩ := hx
  obtain ⟨b, hb, ht, hq'⟩ := hg a hq
  rw [bind_ok ha, hs, ht]
  exact ⟨b, hb, rfl, hq'⟩

theorem Does.cast {α : Type} {x : T α} {s t : List FpOp} {Q : α → Prop} (hx : Does x s Q) (e : s = t) : Does x t Q := e ▸ hx

theorem Does.ret {α : Type} {Q : α → Prop} {a : α} (h : Q a) : Does (pure a : T α) [] Q := ⟨a, rfl, rfl, h⟩
theorem Does.ok {α : Type} {Q : α → Prop} {a : α} (h : Q a) : Does (T.ok a) [] Q := ⟨a, rfl, rfl, h⟩

theorem Does.imp {α : Type} {x : T α} {s : List FpOp} {Q Q' : α → Prop} (hx : Does x s Q) (h : ∀ a, Q a → Q' a) : Does x s Q' := by
  obtain ⟨a, ha, hs, hq⟩ := hx
  exact ⟨a, ha, hs, h a hq⟩

theorem modFloor_ok (n : ℤ) {m : ℤ} (hm : m ≠ 0) : ∃ k, Big.modFloor n m = R.ok k := by
  simp [Big.modFloor, hm]

theorem elt_in (hp : 0 < f.p) (n : ℤ) : Does (f.eltF n) [.elt] (In f) := by
  obtain ⟨k, hk⟩ := modFloor_ok n (m := f.p) (by omega)
  refine ⟨⟨k, f⟩, ?_, rfl, rfl⟩
  show f.elt n = _
  simp [Fp.elt, hk]

theorem red_in (hp : 0 < f.p) {a : FpElt} (ha : In f a) (n : ℤ) : ∃ c, a.red n = R.ok c ∧ In f c := by
  obtain ⟨k, hk⟩ := modFloor_ok n (m := a.f.p) (by rw [ha]; omega)
  exact ⟨⟨k, a.f⟩, by simp [FpElt.red, hk], ha⟩

theorem add_in (hp : 0 < f.p) {a b : FpElt} (ha : In f a) (hb : In f b) : Does (a.addF b) [.add] (In f) := by
  obtain ⟨c, hc, hi⟩ := red_in hp ha (a.n + b.n)
  refine ⟨c, ?_, rfl, hi⟩
  show a.add b = _
  rw [FpElt.add, show a.f = b.f from ha.trans hb.symm, beq_self_eq_true, doIfEq_true, hc]

theorem sub_in (hp : 0 < f.p) {a b : FpElt} (ha : In f a) (hb : In f b) : Does (a.subF b) [.sub] (In f) := by
  obtain ⟨c, hc, hi⟩ := red_in hp ha (a.n - b.n)
  refine ⟨c, ?_, rfl, hi⟩
  show a.sub b = _
  rw [FpElt.sub, show a.f = b.f from ha.trans hb.symm, beq_self_eq_true, doIfEq_true, hc]

theorem mul_in (hp : 0 < f.p) {a b : FpElt} (ha : In f a) (hb : In f b) : Does (a.mulF b) [.mul] (In f) := by
  obtain ⟨c, hc, hi⟩ := red_in hp ha (a.n * b.n)
  refine ⟨c, ?_, rfl, hi⟩
  show a.mul b = _
  rw [FpElt.mul, show a.f = b.f from ha.trans hb.symm, beq_self_eq_true, doIfEq_true, hc]

theorem neg_in (hp : 0 < f.p) {a : FpElt} (ha : In f a) : Does a.negF [.neg] (In f) := by
  obtain ⟨c, hc, hi⟩ := red_in hp ha (-a.n)
  exact ⟨c, hc, rfl, hi⟩

theorem sqr_in (hp : 0 < f.p) {a : FpElt} (ha : In f a) : Does a.sqrF [.mul] (In f) := by
  obtain ⟨c, hc, _, hi⟩ := mul_in hp ha ha
  exact ⟨c, hc, rfl, hi⟩

theorem pow_in (hp : 2 ≤ f.p) {a : FpElt} (ha : In f a) (e : ℤ) :
    Does (a.powIntF e) [.pow (e % ((f.p : ℤ) - 1)).toNat] (In f) := by
  have h1 : ((a.f.p : ℤ) - 1) ≠ 0 := by rw [ha]; omega
  have h2 : 0 ≤ e.fmod ((a.f.p : ℤ) - 1) := Int.fmod_nonneg_of_pos _ (by rw [ha]; omega)
  have h3 : (a.f.p : ℤ) ≠ 0 := by rw [ha]; omega
  have h4 : ∃ v, Big.modpow a.n ((e.fmod ((a.f.p : ℤ) - 1)).toNat : ℕ) a.f.p = R.ok v := by
    rw [Big.modpow, if_neg (by omega), if_neg h3]
    exact ⟨_, rfl⟩
  obtain ⟨v, hv⟩ := h4
  obtain ⟨c, hc, hi⟩ := red_in (by omega) ha v
  refine ⟨c, ?_, ?_, hi⟩
  · show a.powInt e = _
    simp only [FpElt.powInt, Big.modFloor, if_neg h1, R.ok_bind, Big.toBiguint, if_neg (not_lt.mpr h2), FpElt.powNat]
    rw [hv]
    exact hc
  · show [FpOp.pow _] = _
    rw [ha]

theorem inv_in (hp : 2 ≤ f.p) {a : FpElt} (ha : In f a) : Does a.invF [.pow (f.p - 2)] (In f) := by
  have := pow_in hp ha ((a.f.p : ℤ) - 2)
  rw [ha] at this
  have e : (((f.p : ℤ) - 2) % ((f.p : ℤ) - 1)).toNat = f.p - 2 := by
    rw [Int.emod_eq_of_lt (by omega) (by omega)]; omega
  rw [e] at this
  simpa only [FpElt.invF, show a.f = f from ha] using this

theorem div_in (hp : 2 ≤ f.p) {a b : FpElt} (ha : In f a) (hb : In f b) : Does (a.divF b) ([.pow (f.p - 2)] ++ [.mul]) (In f) :=
  (inv_in hp hb).bind fun _ hi => mul_in (by omega) ha hi

theorem isSquare_in (hp : 3 ≤ f.p) {a : FpElt} (ha : In f a) : Does a.isSquareF [.pow ((f.p - 1) / 2)] (fun _ => True) := by
  have := pow_in (by omega) ha (((a.f.p : ℤ) - 1) / 2)
  have e : ((((a.f.p : ℤ) - 1) / 2) % ((f.p : ℤ) - 1)).toNat = (f.p - 1) / 2 := by
    rw [ha, Int.emod_eq_of_lt (by omega) (by omega)]; omega
  rw [e] at this
  exact this.bind (t := []) fun _ _ => Does.ret trivial

theorem fadd (hp : 0 < f.p) {x y : T FpElt} {s t : List FpOp} (hx : Does x s (In f)) (hy : Does y t (In f)) :
    Does (x +ₜ y) (s ++ (t ++ [.add])) (In f) := hx.bind fun _ ha => hy.bind fun _ hb => add_in hp ha hb
theorem fsub (hp : 0 < f.p) {x y : T FpElt} {s t : List FpOp} (hx : Does x s (In f)) (hy : Does y t (In f)) :
    Does (x -ₜ y) (s ++ (t ++ [.sub])) (In f) := hx.bind fun _ ha => hy.bind fun _ hb => sub_in hp ha hb
theorem fmul (hp : 0 < f.p) {x y : T FpElt} {s t : List FpOp} (hx : Does x s (In f)) (hy : Does y t (In f)) :
    Does (x *ₜ y) (s ++ (t ++ [.mul])) (In f) := hx.bind fun _ ha => hy.bind fun _ hb => mul_in hp ha hb
theorem fdiv (hp : 2 ≤ f.p) {x y : T FpElt} {s t : List FpOp} (hx : Does x s (In f)) (hy : Does y t (In f)) :
    Does (x /ₜ y) (s ++ (t ++ ([.pow (f.p - 2)] ++ [.mul]))) (In f) := hx.bind fun _ ha => hy.bind fun _ hb => div_in hp ha hb
theorem fneg (hp : 0 < f.p) {x : T FpElt} {s : List FpOp} (hx : Does x s (In f)) :
    Does (-ₜ x) (s ++ [.neg]) (In f) := hx.bind fun _ ha => neg_in hp ha
theorem fsqr (hp : 0 < f.p) {x : T FpElt} {s : List FpOp} (hx : Does x s (In f)) :
    Does (x ^²ₜ) (s ++ [.mul]) (In f) := hx.bind fun _ ha => sqr_in hp ha
theorem finv (hp : 2 ≤ f.p) {x : T FpElt} {s : List FpOp} (hx : Does x s (In f)) :
    Does (T.finv x) (s ++ [.pow (f.p - 2)]) (In f) := hx.bind fun _ ha => inv_in hp ha

theorem cmov_in {a b : FpElt} (ha : In f a) (hb : In f b) (c : Bool) : In f (FpElt.cmov a b c) := by
  cases c
  · exact ha
  · exact hb

theorem setOne_in {a : FpElt} (ha : In f a) : In f a.setOne := ha

/-- The operations of a square root. -/
def sqrtOps (p : ℕ) : List FpOp :=
  if p % 4 = 3 then [.pow ((p + 1) / 4)]
  else [.elt, .elt, .add, .pow ((p - 5) / 8), .mul, .add, .elt, .add, .mul, .pow ((p - 5) / 8 + 1), .mul, .mul]

theorem sqrt_in (hp : 3 ≤ f.p) (h : f.p % 4 = 3 ∨ f.p % 8 = 5) {a : FpElt} (ha : In f a) : Does a.sqrtF (sqrtOps f.p) (In f) := by
  have ha' : a.f = f := ha
  rw [FpElt.sqrtF, ha']
  by_cases h4 : f.p % 4 = 3
  · have hc : f.calcSqrtPrecmpF = pure (.p3mod4 (((f.p : ℤ) + 1) / 4)) := by
      simp only [Fp.calcSqrtPrecmpF]
      rw [if_pos (by omega)]
    rw [hc, sqrtOps, if_pos h4]
    refine Does.bind (s := []) (Q := fun x => x = .p3mod4 (((f.p : ℤ) + 1) / 4)) (Does.ret rfl) fun _ e => ?_
    subst e
    have := pow_in (by omega) ha (((f.p : ℤ) + 1) / 4)
    rw [Int.emod_eq_of_lt (by omega) (by omega), show (((f.p : ℤ) + 1) / 4).toNat = (f.p + 1) / 4 by omega] at this
    exact this
  · have h8 : f.p % 8 = 5 := by omega
    rw [sqrtOps, if_neg h4]
    have hc : Does f.calcSqrtPrecmpF [.elt, .elt, .add, .pow ((f.p - 5) / 8), .mul, .add, .elt, .add, .mul]
        (fun x => ∃ s, In f s ∧ x = .p5mod8 (((f.p : ℤ) - 5) / 8 + 1) s) := by
      simp only [Fp.calcSqrtPrecmpF]
      rw [if_neg (by omega), if_pos (by omega)]
      have h0 : 0 < f.p := by omega
      refine (fadd h0 (elt_in h0 1) (elt_in h0 1)).bind fun two htwo => ?_
      have hpow := pow_in (by omega) htwo (((f.p : ℤ) - 5) / 8)
      rw [Int.emod_eq_of_lt (by omega) (by omega), show (((f.p : ℤ) - 5) / 8).toNat = (f.p - 5) / 8 by omega] at hpow
      refine hpow.bind fun t ht => (sqr_in h0 ht).bind fun t0 ht0 => (fadd h0 (Does.ok ht0) (Does.ok ht0)).bind fun t1 ht1 =>
        (fadd h0 (Does.ok ht1) (elt_in h0 1)).bind fun t2 ht2 => (fmul h0 (Does.ok ht2) (Does.ok ht)).bind (t := []) fun t3 ht3 =>
        Does.ret ⟨t3, ht3, rfl⟩
    refine hc.bind (t := [.pow ((f.p - 5) / 8 + 1), .mul, .mul]) fun x hx => ?_
    obtain ⟨s, hs, rfl⟩ := hx
    have hpow := pow_in (by omega) ha (((f.p : ℤ) - 5) / 8 + 1)
    by_cases h5 : f.p = 5
    · have e : ((((f.p : ℤ) - 5) / 8 + 1) % ((f.p : ℤ) - 1)).toNat = (f.p - 5) / 8 + 1 := by rw [h5]; rfl
      rw [e] at hpow
      exact hpow.bind fun t0 ht0 => (sqr_in (by omega) ht0).bind fun t1 ht1 => (fmul (by omega) (Does.ok ht0) (Does.ok hs)).bind (t := []) fun t2 ht2 =>
        Does.ret (cmov_in ht2 ht0 _)
    · rw [Int.emod_eq_of_lt (by omega) (by omega), show (((f.p : ℤ) - 5) / 8 + 1).toNat = (f.p - 5) / 8 + 1 by omega] at hpow
      exact hpow.bind fun t0 ht0 => (sqr_in (by omega) ht0).bind fun t1 ht1 => (fmul (by omega) (Does.ok ht0) (Does.ok hs)).bind (t := []) fun t2 ht2 =>
        Does.ret (cmov_in ht2 ht0 _)

/-- Operands: known elements and results of earlier operations, and nested operations. -/
macro "flat" : tactic => `(tactic| (repeat' (first
  | with_reducible exact Does.ok (by assumption) | with_reducible exact Does.ret (by assumption)
  | with_reducible apply fadd | with_reducible apply fsub | with_reducible apply fmul | with_reducible apply fdiv | with_reducible apply fneg
  | with_reducible apply fsqr | with_reducible apply finv
  | with_reducible apply elt_in | with_reducible apply isSquare_in | with_reducible apply inv_in | with_reducible apply neg_in
  | with_reducible assumption)))

end Redox.FT
