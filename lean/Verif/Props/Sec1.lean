import Verif.Props.MontCodec
import Verif.Props.FlowProps

/-!
# C98: the byte format of encoded points
-/

set_option linter.unusedSectionVars false

namespace Redox

open Spec

/-- The octet string of SEC 1, 2.3.3 for the affine point `(x, y)` with coordinates of `n` bytes: `04`, `x`, `y`, or `02`/`03` by the parity of
`y`, and `x`; big endian. -/
def Spec.IsSec1 {p : ℕ} (n : ℕ) (x y : ZMod p) (compressed : Bool) (bs : List Byte) : Prop :=
  ∃ xs ys, xs.length = n ∧ ys.length = n ∧ Props.beValue xs = x.val ∧ Props.beValue ys = y.val ∧
    bs = if compressed then (if y.val % 2 = 0 then 2 else 3) :: xs else 4 :: (xs ++ ys)

theorem fromBE_fixed0 {p : ℕ} (v : ZMod p) : Big.fromBytesBE (Big.fixedBE ((Big.bits p + 7) / 8) v.val) = v.val :=
  Big.fromBytesBE_fixedBE _ _

namespace Props

open Weierstrass WLink RCB

section
variable (p : ℕ) [Fact p.Prime] (e : Curve)

/-- C98, Weierstrass, `encode`: whatever the representative `(x z : y z : z)`, the result is the octet string of SEC 1. -/
theorem _root_.Redox.Props.C98_weierstrass_encode (he : WCurve p e) (P : Point) (hPe : P.e = e) (hcx : Canon p P.c.x) (hcy : Canon p P.c.y)
    (hcz : Canon p P.c.z) (x y : ZMod p) (hz : val p P.c.z ≠ 0) (hx : val p P.c.x = x * val p P.c.z)
    (hy : val p P.c.y = y * val p P.c.z) (c : Bool) :
    ∃ bs, P.encode c = R.ok bs ∧ IsSec1 e.f.sizeBytes x y c bs := by
  obtain ⟨e', ⟨X, Y, Z⟩⟩ := P
  simp only at hPe hcx hcy hcz hz hx hy
  subst hPe
  have hP : (Point.mk e' ⟨X, Y, Z⟩) = pt e' (val p X) (val p Y) (val p Z) := by
    rw [pt, ← hcx.eq_el, ← hcy.eq_el, ← hcz.eq_el]
  have h1 : val p X * (val p Z)⁻¹ = x := by rw [hx, mul_assoc, mul_inv_cancel₀ hz, mul_one]
  have h2 : val p Y * (val p Z)⁻¹ = y := by rw [hy, mul_assoc, mul_inv_cancel₀ hz, mul_one]
  refine ⟨_, by rw [hP, encode_pt he], _, _, fixedBE_len he x, fixedBE_len he y, ?_, ?_, ?_⟩
  · rw [Props.beValue_eq, fromBE_fixed0]
  · rw [Props.beValue_eq, fromBE_fixed0]
  · rw [h1, h2, signTag_eq]

/-- C98, Weierstrass, `decode`: the octet string of every pair that satisfies the equation decodes to that pair. -/
theorem _root_.Redox.Props.C98_weierstrass_decode (he : WCurve p e) (hs : p % 4 = 3 ∨ p % 8 = 5) (x y : ZMod p)
    (hon : y ^ 2 = x ^ 3 + val p e.a * x + val p e.b) (c : Bool) (bs : List Byte) (h : IsSec1 e.f.sizeBytes x y c bs) :
    ∃ Q, e.decode bs = R.ok (.ok Q) ∧ Q.e = e ∧ Q.c.x.n = x.val ∧ Q.c.y.n = y.val ∧ Q.c.z.n = 1 := by
  obtain ⟨xs, ys, lx, ly, vx, vy, rfl⟩ := h
  rw [Props.beValue_eq] at vx vy
  have hres : (pt e x y 1).e = e ∧ (pt e x y 1).c.x.n = x.val ∧ (pt e x y 1).c.y.n = y.val ∧ (pt e x y 1).c.z.n = 1 := by
    refine ⟨rfl, ?_, ?_, ?_⟩
    · simp only [pt, el_n, cast_eq_val]
    · simp only [pt, el_n, cast_eq_val]
    · have : Fact (1 < p) := ⟨he.prime.one_lt⟩
      simp only [pt, el_n, cast_eq_val, ZMod.val_one, Nat.cast_one]
  have hux : (Big.fromBytesBE xs : ZMod p) = x := by rw [vx, cast_val_nat]
  have huy : (Big.fromBytesBE ys : ZMod p) = y := by rw [vy, cast_val_nat]
  cases c
  · have := decode_uncompressed he xs ys lx ly (vx ▸ ZMod.val_lt x) (vy ▸ ZMod.val_lt y)
    rw [hux, huy, if_pos hon] at this
    exact ⟨_, this, hres⟩
  · rw [if_pos rfl, ← signTag_eq]
    have := (decode_compressed he hs (signTag y) (signTag_mem y) xs lx (vx ▸ ZMod.val_lt x)).2
    rw [hux] at this
    obtain ⟨y', hy', hsg, hd⟩ := this ⟨y, by rw [← hon]; ring⟩
    have hyy : y' = y := by
      have h0 : (y' - y) * (y' + y) = 0 := by
        linear_combination hy' - hon
      rcases mul_eq_zero.1 h0 with h | h
      · exact sub_eq_zero.1 h
      · have hneg : y' = -y := eq_neg_of_add_eq_zero_left h
        by_cases h0 : y = 0
        · rw [hneg, h0, neg_zero]
        · rcases hsg with hz | hz
          · exact absurd (neg_eq_zero.1 (hneg ▸ hz)) h0
          · rw [hneg] at hz
            exact absurd hz (signTag_neg (odd_p he) h0)
    rw [hyy] at hd
    exact ⟨_, hd, hres⟩

end

end Props

namespace Props.Mo

open Montgomery MLink Mont

section
variable (p : ℕ) [Fact p.Prime] (e : Curve)

/-- C98, Montgomery, `encode`: whatever the representative `(x z : y z : z)`, the result is the octet string of SEC 1. -/
theorem _root_.Redox.Props.C98_montgomery_encode (he : MCurve p e) (P : Point) (hPe : P.e = e) (hcx : Canon p P.c.x) (hcy : Canon p P.c.y)
    (hcz : Canon p P.c.z) (x y : ZMod p) (hz : val p P.c.z ≠ 0) (hx : val p P.c.x = x * val p P.c.z)
    (hy : val p P.c.y = y * val p P.c.z) (c : Bool) :
    ∃ bs, P.encode c = R.ok bs ∧ IsSec1 e.f.sizeBytes x y c bs := by
  obtain ⟨e', ⟨X, Y, Z⟩⟩ := P
  simp only at hPe hcx hcy hcz hz hx hy
  subst hPe
  have hP : (Point.mk e' ⟨X, Y, Z⟩) = pt e' (val p X) (val p Y) (val p Z) := by
    rw [pt, ← hcx.eq_el, ← hcy.eq_el, ← hcz.eq_el]
  have h1 : val p X * (val p Z)⁻¹ = x := by rw [hx, mul_assoc, mul_inv_cancel₀ hz, mul_one]
  have h2 : val p Y * (val p Z)⁻¹ = y := by rw [hy, mul_assoc, mul_inv_cancel₀ hz, mul_one]
  refine ⟨_, by rw [hP, encode_pt he], _, _, fixedBE_len he x, fixedBE_len he y, ?_, ?_, ?_⟩
  · rw [Props.beValue_eq, fromBE_fixed0]
  · rw [Props.beValue_eq, fromBE_fixed0]
  · rw [h1, h2, signTag_eq]

/-- C98, Montgomery, `decode`: the octet string of every pair that satisfies the equation decodes to that pair. -/
theorem _root_.Redox.Props.C98_montgomery_decode (he : MCurve p e) (hs : p % 4 = 3 ∨ p % 8 = 5) (x y : ZMod p)
    (hon : val p e.b * y ^ 2 = x ^ 3 + val p e.a * x ^ 2 + x) (c : Bool) (bs : List Byte) (h : IsSec1 e.f.sizeBytes x y c bs) :
    ∃ Q, e.decode bs = R.ok (.ok Q) ∧ Q.e = e ∧ Q.c.x.n = x.val ∧ Q.c.y.n = y.val ∧ Q.c.z.n = 1 := by
  obtain ⟨xs, ys, lx, ly, vx, vy, rfl⟩ := h
  rw [Props.beValue_eq] at vx vy
  have hres : (pt e x y 1).e = e ∧ (pt e x y 1).c.x.n = x.val ∧ (pt e x y 1).c.y.n = y.val ∧ (pt e x y 1).c.z.n = 1 := by
    refine ⟨rfl, ?_, ?_, ?_⟩
    · simp only [pt, el_n, cast_eq_val]
    · simp only [pt, el_n, cast_eq_val]
    · have : Fact (1 < p) := ⟨he.prime.one_lt⟩
      simp only [pt, el_n, cast_eq_val, ZMod.val_one, Nat.cast_one]
  have hux : (Big.fromBytesBE xs : ZMod p) = x := by rw [vx, cast_val_nat]
  have huy : (Big.fromBytesBE ys : ZMod p) = y := by rw [vy, cast_val_nat]
  cases c
  · have := decode_uncompressed he xs ys lx ly (vx ▸ ZMod.val_lt x) (vy ▸ ZMod.val_lt y)
    rw [hux, huy, if_pos hon] at this
    exact ⟨_, this, hres⟩
  · rw [if_pos rfl, ← signTag_eq]
    have := (decode_compressed he hs (signTag y) (signTag_mem y) xs lx (vx ▸ ZMod.val_lt x)).2
    rw [hux] at this
    obtain ⟨y', hy', hsg, hd⟩ := this ⟨y, hon⟩
    have hyy : y' = y := by
      have h0 : (y' - y) * (y' + y) = 0 := by
        have h1 : val p e.b * ((y' - y) * (y' + y)) = 0 := by linear_combination hy' - hon
        exact (mul_eq_zero.1 h1).resolve_left (eb_ne he)
      rcases mul_eq_zero.1 h0 with h | h
      · exact sub_eq_zero.1 h
      · have hneg : y' = -y := eq_neg_of_add_eq_zero_left h
        by_cases h0 : y = 0
        · rw [hneg, h0, neg_zero]
        · rcases hsg with hz | hz
          · exact absurd (neg_eq_zero.1 (hneg ▸ hz)) h0
          · rw [hneg] at hz
            exact absurd hz (signTag_neg (odd_p he) h0)
    rw [hyy] at hd
    exact ⟨_, hd, hres⟩

end

end Props.Mo

/-- A case of the format with a two-byte field: `x = 3`, `y = 256` over GF(257). -/
example : Spec.IsSec1 (p := 257) 2 3 256 false [4, 0, 3, 1, 0] ∧ Spec.IsSec1 (p := 257) 2 3 256 true [2, 0, 3] :=
  ⟨⟨[0, 3], [1, 0], by decide +kernel⟩, ⟨[0, 3], [1, 0], by decide +kernel⟩⟩

/-- The compressed generator of P256 as published in SEC 2 decodes to the generator, and is what `encode` returns for its double minus itself. -/
example : WCurve Inst.p256_p Inst.p256 ∧ (do
    let bs : List Byte := [3, 107, 23, 209, 242, 225, 44, 66, 71, 248, 188, 230, 229, 99, 164, 64, 242, 119, 3, 125, 129, 45, 235, 51, 160, 244, 161, 57, 69, 216, 152, 194, 150]
    let G ← Inst.p256.getGenerator
    let P ← (← G.add G).sub G
    let Q ← Props.Flow.unwrap (Inst.p256.decode bs)
    return decide (Q.c.x = G.c.x ∧ Q.c.y = G.c.y ∧ P.c.z ≠ G.c.z) && (← P.encode true) == bs) = R.ok true := by
  refine ⟨Inst.p256_valid.curve, by decide +kernel⟩

end Redox
