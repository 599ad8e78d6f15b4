import Verif.Props.FieldMisc
import Verif.Model.Instances
import Verif.Proofs.WeierLink
import Verif.Proofs.MontLink
import Verif.Proofs.EdwLink

/-!
# C75: curves built from user parameters (`From<&Params>`)
-/

namespace Redox.Props

open Spec

/-- `s` is a decimal number: optional plus, digits, underscores after the first digit. -/
def IsDecimal (s : List Byte) (n : ℕ) : Prop :=
  ∃ (plus : Bool) (body : List (Option (ℕ × Bool))), IsBody 10 body ∧
    s = (if plus then ascii! "+" else []) ++ body.map bodyChar ∧ n = litValue 10 (body.filterMap id)

namespace Par

theorem biguint_iff (s : List Byte) (n : ℕ) : biguintFromStr s = R.ok n ↔ IsDecimal s n := by
  unfold biguintFromStr
  constructor
  · intro h
    split at h
    · rename_i v hv
      rw [R.ok.injEq] at h
      subst h
      obtain ⟨plus, body, hb, hs⟩ := parseNat_some 10 (by norm_num) s v hv
      have := parseNat_body 10 (by norm_num) plus body hb
      rw [← hs, hv, Option.some.injEq] at this
      exact ⟨plus, body, hb, hs, this⟩
    · cases h
  · rintro ⟨plus, body, hb, rfl, rfl⟩
    have : Big.parseNat 10 ((if plus then ascii! "+" else []) ++ body.map bodyChar) = _ :=
      parseNat_body 10 (by norm_num) plus body hb
    rw [this]

theorem fromStr_zero (s : List Byte) (x : FpElt) : (Fp.new 0).fromStr s ≠ R.ok x := by
  have he : ∀ v, (Fp.new 0).elt v ≠ R.ok x := by
    intro v; simp [Fp.new, Fp.elt, Big.modFloor]
  intro h
  rw [fromStr_eq] at h
  split_ifs at h with h0 h45
  · exact he 0 h
  · obtain ⟨form, hf, rest, z, hsl, hz, h⟩ := (afterSign_iff _ _ _ _).1 h
    exact he _ h
  · obtain ⟨form, hf, rest, z, hsl, hz, h⟩ := (afterSign_iff _ _ _ _).1 h
    exact he _ h

theorem fromStr_iff (p : ℕ) (s : List Byte) (x : FpElt) : (Fp.new p).fromStr s = R.ok x ↔
    1 ≤ p ∧ ∃ v : ℤ, IsLiteral s v ∧ Canon p x ∧ val p x = v := by
  rcases Nat.eq_zero_or_pos p with rfl | hp
  · simp [fromStr_zero]
  have : NeZero p := ⟨by omega⟩
  have hel : ∀ v : ℤ, (Fp.new p).elt v = R.ok (el (v : ZMod p)) := fun v => by simp [Fp.new]
  obtain ⟨h1, h2⟩ := C62_literals p hp s
  constructor
  · intro h
    by_cases hl : ∃ v, IsLiteral s v
    · obtain ⟨v, hv⟩ := hl
      have := (h1 v hv).1
      rw [h, hel, R.ok.injEq] at this
      subst this
      exact ⟨hp, v, hv, canon_iff.2 ⟨_, rfl⟩, val_el _⟩
    · obtain ⟨w, hw⟩ := h2 fun v hv => hl ⟨v, hv⟩
      rw [hw] at h; cases h
  · rintro ⟨-, v, hv, hc, hx⟩
    obtain ⟨z, rfl⟩ := canon_iff.1 hc
    rw [val_el] at hx
    rw [(h1 v hv).1, hel, hx]

end Par

/-- C75, Weierstrass. `Curve::from(&params)` returns the curve `e` exactly when the strings are numbers (decimal for `p`,
`r`, `h`, field literals for the rest; `p` not zero), and `e` has exactly these parameters. Otherwise it panics. -/
theorem C75_weierstrass (q : Weierstrass.Params) (e : Weierstrass.Curve) :
    Weierstrass.Curve.ofParams q = R.ok e ↔ ∃ (p : ℕ) (a b gx gy : ℤ), 1 ≤ p ∧ e.getField = Fp.new p ∧ IsDecimal q.p p ∧
      IsDecimal q.r e.getOrder ∧ (∃ h, IsDecimal q.h h ∧ e.getCofactor = h) ∧
      (IsLiteral q.a a ∧ Canon p e.a ∧ val p e.a = a) ∧ (IsLiteral q.b b ∧ Canon p e.b ∧ val p e.b = b) ∧
      (IsLiteral q.gx gx ∧ Canon p e.gx ∧ val p e.gx = gx) ∧ (IsLiteral q.gy gy ∧ Canon p e.gy ∧ val p e.gy = gy) := by
  simp only [Weierstrass.Curve.ofParams, R.bind_eq_ok, Par.biguint_iff, Par.fromStr_iff, R.pure_eq, R.ok.injEq]
  constructor
  · rintro ⟨p, hp, a, ⟨h1, va, ha⟩, b, ⟨-, vb, hb⟩, r, hr, h, hh, gx, ⟨-, vx, hx⟩, gy, ⟨-, vy, hy⟩, rfl⟩
    exact ⟨p, va, vb, vx, vy, h1, rfl, hp, hr, ⟨h, hh, rfl⟩, ha, hb, hx, hy⟩
  · rintro ⟨p, va, vb, vx, vy, h1, hf, hp, hr, ⟨h, hh, hc⟩, ha, hb, hx, hy⟩
    obtain ⟨f, a, b, r, gx, gy, h'⟩ := e
    obtain rfl : h' = h := Int.ofNat.inj hc
    obtain rfl : f = Fp.new p := hf
    exact ⟨p, hp, _, ⟨h1, va, ha⟩, _, ⟨h1, vb, hb⟩, _, hr, _, hh, _, ⟨h1, vx, hx⟩, _, ⟨h1, vy, hy⟩, rfl⟩

/-- C75, Montgomery. -/
theorem C75_montgomery (q : Montgomery.Params) (e : Montgomery.Curve) :
    Montgomery.Curve.ofParams q = R.ok e ↔ ∃ (p : ℕ) (a b s gx gy : ℤ), 1 ≤ p ∧ e.getField = Fp.new p ∧ IsDecimal q.p p ∧
      IsDecimal q.r e.getOrder ∧ (∃ h, IsDecimal q.h h ∧ e.getCofactor = h) ∧
      (IsLiteral q.a a ∧ Canon p e.a ∧ val p e.a = a) ∧ (IsLiteral q.b b ∧ Canon p e.b ∧ val p e.b = b) ∧
      (IsLiteral q.s s ∧ Canon p e.s ∧ val p e.s = s) ∧
      (IsLiteral q.gx gx ∧ Canon p e.gx ∧ val p e.gx = gx) ∧ (IsLiteral q.gy gy ∧ Canon p e.gy ∧ val p e.gy = gy) := by
  simp only [Montgomery.Curve.ofParams, R.bind_eq_ok, Par.biguint_iff, Par.fromStr_iff, R.pure_eq, R.ok.injEq]
  constructor
  · rintro ⟨p, hp, a, ⟨h1, va, ha⟩, b, ⟨-, vb, hb⟩, s, ⟨-, vs, hs⟩, r, hr, h, hh, gx, ⟨-, vx, hx⟩, gy, ⟨-, vy, hy⟩, rfl⟩
    exact ⟨p, va, vb, vs, vx, vy, h1, rfl, hp, hr, ⟨h, hh, rfl⟩, ha, hb, hs, hx, hy⟩
  · rintro ⟨p, va, vb, vs, vx, vy, h1, hf, hp, hr, ⟨h, hh, hc⟩, ha, hb, hs, hx, hy⟩
    obtain ⟨f, a, b, s, r, gx, gy, h'⟩ := e
    obtain rfl : h' = h := Int.ofNat.inj hc
    obtain rfl : f = Fp.new p := hf
    exact ⟨p, hp, _, ⟨h1, va, ha⟩, _, ⟨h1, vb, hb⟩, _, ⟨h1, vs, hs⟩, _, hr, _, hh, _, ⟨h1, vx, hx⟩, _, ⟨h1, vy, hy⟩, rfl⟩

/-- C75, Edwards. -/
theorem C75_edwards (q : Edwards.Params) (e : Edwards.Curve) :
    Edwards.Curve.ofParams q = R.ok e ↔ ∃ (p : ℕ) (a d gx gy : ℤ), 1 ≤ p ∧ e.getField = Fp.new p ∧ IsDecimal q.p p ∧
      IsDecimal q.r e.getOrder ∧ (∃ h, IsDecimal q.h h ∧ e.getCofactor = h) ∧
      (IsLiteral q.a a ∧ Canon p e.a ∧ val p e.a = a) ∧ (IsLiteral q.d d ∧ Canon p e.d ∧ val p e.d = d) ∧
      (IsLiteral q.gx gx ∧ Canon p e.gx ∧ val p e.gx = gx) ∧ (IsLiteral q.gy gy ∧ Canon p e.gy ∧ val p e.gy = gy) := by
  simp only [Edwards.Curve.ofParams, R.bind_eq_ok, Par.biguint_iff, Par.fromStr_iff, R.pure_eq, R.ok.injEq]
  constructor
  · rintro ⟨p, hp, a, ⟨h1, va, ha⟩, b, ⟨-, vb, hb⟩, r, hr, h, hh, gx, ⟨-, vx, hx⟩, gy, ⟨-, vy, hy⟩, rfl⟩
    exact ⟨p, va, vb, vx, vy, h1, rfl, hp, hr, ⟨h, hh, rfl⟩, ha, hb, hx, hy⟩
  · rintro ⟨p, va, vb, vx, vy, h1, hf, hp, hr, ⟨h, hh, hc⟩, ha, hb, hx, hy⟩
    obtain ⟨f, a, b, r, gx, gy, h'⟩ := e
    obtain rfl : h' = h := Int.ofNat.inj hc
    obtain rfl : f = Fp.new p := hf
    exact ⟨p, hp, _, ⟨h1, va, ha⟩, _, ⟨h1, vb, hb⟩, _, hr, _, hh, _, ⟨h1, vx, hx⟩, _, ⟨h1, vy, hy⟩, rfl⟩

/-- C75: what is checked about the parameters is checked when the generator is asked for: on a curve built from parameters
`get_generator()` returns `(gx, gy)` if it satisfies the equation modulo `p` and panics otherwise (Weierstrass). -/
theorem C75_generator_weierstrass (q : Weierstrass.Params) (e : Weierstrass.Curve) (h : Weierstrass.Curve.ofParams q = R.ok e) :
    ∃ p : ℕ, e.getField = Fp.new p ∧
    (val p e.gy ^ 2 = val p e.gx ^ 3 + val p e.a * val p e.gx + val p e.b →
      ∃ G, e.getGenerator = R.ok G ∧ G.e = e ∧ G.c.x = e.gx ∧ G.c.y = e.gy ∧ Canon p G.c.z ∧ val p G.c.z = 1) ∧
    (val p e.gy ^ 2 ≠ val p e.gx ^ 3 + val p e.a * val p e.gx + val p e.b → e.getGenerator = R.panic .notValidPoint) := by
  obtain ⟨p, va, vb, vx, vy, h1, hf, -, -, -, ⟨-, ha, -⟩, ⟨-, hb, -⟩, ⟨-, hx, -⟩, ⟨-, hy, -⟩⟩ := (C75_weierstrass q e).1 h
  have : NeZero p := ⟨by omega⟩
  obtain ⟨a, ha⟩ := canon_iff.1 ha
  obtain ⟨b, hb⟩ := canon_iff.1 hb
  obtain ⟨x, hx⟩ := canon_iff.1 hx
  obtain ⟨y, hy⟩ := canon_iff.1 hy
  have hone : e.f.one = R.ok (el (1 : ZMod p)) := by
    have : e.f = Fp.new p := hf
    rw [this]; simp [Fp.new]
  have hg : e.getGenerator = if x ^ 3 + 1 * (1 * (a * x + b * 1) - y ^ 2) = 0 then R.ok (WLink.pt e x y 1)
      else R.panic .notValidPoint := by
    rw [Weierstrass.Curve.getGenerator, hone, R.ok_bind, hx, hy, WLink.newProyPoint_pt ha hb]
  refine ⟨p, hf, fun hon => ⟨_, hg.trans (if_pos ?_), rfl, hx.symm, hy.symm, canon_iff.2 ⟨_, rfl⟩, val_el _⟩, fun hon => ?_⟩
  · rw [ha, hb, hx, hy] at hon
    simp only [val_el] at hon
    linear_combination -hon
  · rw [hg, if_neg]
    rw [ha, hb, hx, hy] at hon
    simp only [val_el] at hon
    intro h0
    exact hon (by linear_combination -h0)

/-- C75: the same for Montgomery curves. -/
theorem C75_generator_montgomery (q : Montgomery.Params) (e : Montgomery.Curve) (h : Montgomery.Curve.ofParams q = R.ok e) :
    ∃ p : ℕ, e.getField = Fp.new p ∧
    (val p e.b * val p e.gy ^ 2 = val p e.gx ^ 3 + val p e.a * val p e.gx ^ 2 + val p e.gx →
      ∃ G, e.getGenerator = R.ok G ∧ G.e = e ∧ G.c.x = e.gx ∧ G.c.y = e.gy ∧ Canon p G.c.z ∧ val p G.c.z = 1) ∧
    (val p e.b * val p e.gy ^ 2 ≠ val p e.gx ^ 3 + val p e.a * val p e.gx ^ 2 + val p e.gx →
      e.getGenerator = R.panic .notValidPoint) := by
  obtain ⟨p, va, vb, vs, vx, vy, h1, hf, -, -, -, ⟨-, ha, -⟩, ⟨-, hb, -⟩, -, ⟨-, hx, -⟩, ⟨-, hy, -⟩⟩ :=
    (C75_montgomery q e).1 h
  have : NeZero p := ⟨by omega⟩
  obtain ⟨a, ha⟩ := canon_iff.1 ha
  obtain ⟨b, hb⟩ := canon_iff.1 hb
  obtain ⟨x, hx⟩ := canon_iff.1 hx
  obtain ⟨y, hy⟩ := canon_iff.1 hy
  have hone : e.f.one = R.ok (el (1 : ZMod p)) := by
    have : e.f = Fp.new p := hf
    rw [this]; simp [Fp.new]
  have hg : e.getGenerator = if b * y ^ 2 * 1 = x * (x ^ 2 + a * x * 1 + 1 ^ 2) then R.ok (MLink.pt e x y 1)
      else R.panic .notValidPoint := by
    rw [Montgomery.Curve.getGenerator, hone, R.ok_bind, hx, hy, MLink.newProyPoint_pt ha hb]
  refine ⟨p, hf, fun hon => ⟨_, hg.trans (if_pos ?_), rfl, hx.symm, hy.symm, canon_iff.2 ⟨_, rfl⟩, val_el _⟩, fun hon => ?_⟩
  · rw [ha, hb, hx, hy] at hon
    simp only [val_el] at hon
    linear_combination hon
  · rw [hg, if_neg]
    rw [ha, hb, hx, hy] at hon
    simp only [val_el] at hon
    intro h0
    exact hon (by linear_combination h0)

/-- C75: the same for Edwards curves. -/
theorem C75_generator_edwards (q : Edwards.Params) (e : Edwards.Curve) (h : Edwards.Curve.ofParams q = R.ok e) :
    ∃ p : ℕ, e.getField = Fp.new p ∧
    (val p e.a * val p e.gx ^ 2 + val p e.gy ^ 2 = 1 + val p e.d * val p e.gx ^ 2 * val p e.gy ^ 2 →
      ∃ G, e.getGenerator = R.ok G ∧ G.e = e ∧ G.c.x = e.gx ∧ G.c.y = e.gy ∧ Canon p G.c.z ∧ val p G.c.z = 1 ∧
        Canon p G.c.t ∧ val p G.c.t = val p e.gx * val p e.gy) ∧
    (val p e.a * val p e.gx ^ 2 + val p e.gy ^ 2 ≠ 1 + val p e.d * val p e.gx ^ 2 * val p e.gy ^ 2 →
      e.getGenerator = R.panic .notValidPoint) := by
  obtain ⟨p, va, vb, vx, vy, h1, hf, -, -, -, ⟨-, ha, -⟩, ⟨-, hd, -⟩, ⟨-, hx, -⟩, ⟨-, hy, -⟩⟩ := (C75_edwards q e).1 h
  have : NeZero p := ⟨by omega⟩
  obtain ⟨a, ha⟩ := canon_iff.1 ha
  obtain ⟨d, hd⟩ := canon_iff.1 hd
  obtain ⟨x, hx⟩ := canon_iff.1 hx
  obtain ⟨y, hy⟩ := canon_iff.1 hy
  have hone : e.f.one = R.ok (el (1 : ZMod p)) := by
    have : e.f = Fp.new p := hf
    rw [this]; simp [Fp.new]
  have hg : e.getGenerator = if ELink.OnCurve a d x y (x * y) 1 then R.ok (ELink.pt e x y (x * y) 1)
      else R.panic .notValidPoint := by
    simp only [Edwards.Curve.getGenerator, hone, R.ok_bind, hx, hy, R.fmul_ok, mul_el, ELink.newProyPoint_pt ha hd]
  refine ⟨p, hf, fun hon => ⟨_, hg.trans (if_pos ?_), rfl, hx.symm, hy.symm, canon_iff.2 ⟨_, rfl⟩, val_el _,
    canon_iff.2 ⟨_, rfl⟩, ?_⟩, fun hon => ?_⟩
  · rw [ha, hd, hx, hy] at hon
    simp only [val_el] at hon
    exact ⟨by linear_combination hon, by ring⟩
  · simp only [hx, hy, val_el]
    exact val_el _
  · rw [hg, if_neg]
    rw [ha, hd, hx, hy] at hon
    simp only [val_el] at hon
    intro h0
    exact hon (by linear_combination h0.1)

/-- C75 is refuted for validation: nothing else is checked. A curve with composite modulus, vanishing discriminant and
order zero is built, and its `get_generator()` answers; a curve with a generator off the curve is built. -/
theorem C75_refuted :
    (∃ e G, Weierstrass.Curve.ofParams ⟨[], ascii! "15", ascii! "0", ascii! "0", ascii! "0", ascii! "0", ascii! "1", ascii! "1"⟩
        = R.ok e ∧ ¬ e.f.p.Prime ∧ e.getOrder = 0 ∧ e.a.isZero ∧ e.b.isZero ∧ e.getGenerator = R.ok G) ∧
    (∃ e, Weierstrass.Curve.ofParams ⟨[], ascii! "7", ascii! "1", ascii! "1", ascii! "5", ascii! "1", ascii! "0", ascii! "3"⟩
        = R.ok e ∧ e.getGenerator = R.panic .notValidPoint) := by
  refine ⟨⟨⟨⟨15⟩, ⟨0, ⟨15⟩⟩, ⟨0, ⟨15⟩⟩, 0, ⟨1, ⟨15⟩⟩, ⟨1, ⟨15⟩⟩, 0⟩,
    ⟨⟨⟨15⟩, ⟨0, ⟨15⟩⟩, ⟨0, ⟨15⟩⟩, 0, ⟨1, ⟨15⟩⟩, ⟨1, ⟨15⟩⟩, 0⟩, ⟨⟨1, ⟨15⟩⟩, ⟨1, ⟨15⟩⟩, ⟨1, ⟨15⟩⟩⟩⟩, ?_, ?_, rfl, ?_, ?_, ?_⟩,
    ⟨⟨⟨7⟩, ⟨1, ⟨7⟩⟩, ⟨1, ⟨7⟩⟩, 5, ⟨0, ⟨7⟩⟩, ⟨3, ⟨7⟩⟩, 1⟩, ?_, ?_⟩⟩
  · decide +kernel
  · norm_num
  all_goals decide +kernel

/-- Odd but accepted: a plus sign, underscores, a prefix. -/
example : ∃ e, Weierstrass.Curve.ofParams ⟨[], ascii! "+1_3", ascii! "-3", ascii! "0xB", ascii! "7", ascii! "1", ascii! "0b10",
    ascii! "0"⟩ = R.ok e ∧ e.f.p = 13 ∧ e.a.n = 10 ∧ e.b.n = 11 ∧ e.getGenerator = R.ok ⟨e, ⟨⟨2, ⟨13⟩⟩, ⟨0, ⟨13⟩⟩, ⟨1, ⟨13⟩⟩⟩⟩ := by
  refine ⟨⟨⟨13⟩, ⟨10, ⟨13⟩⟩, ⟨11, ⟨13⟩⟩, 7, ⟨2, ⟨13⟩⟩, ⟨0, ⟨13⟩⟩, 1⟩, ?_, rfl, rfl, rfl, ?_⟩ <;> decide +kernel

end Redox.Props
