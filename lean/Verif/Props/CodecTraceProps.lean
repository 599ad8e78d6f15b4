import Verif.Proofs.CodecTraceLink
import Verif.Props.EdwCodec
import Verif.Props.FieldTraceProps
import Verif.Props.MapTraceProps

/-!
# C114: the field operations performed by encoding and decoding

`Model/CodecTrace.lean` adds to `encode` and `decode` the list of the field operations they call. Here: forgetting the list gives the function back, and
which operations are called says nothing about the encoded point, except which of the two square roots was taken.
-/

namespace Redox.Props

open Spec FT

/-- C114: forgetting the list of operations gives the functions of the library, for all arguments. -/
theorem C114_same (buf : List Byte) (c : Bool) :
    (∀ e : Weierstrass.Curve, (e.decodeF buf).out = e.decode buf) ∧ (∀ P : Weierstrass.Point, (P.encodeF c).out = P.encode c) ∧
    (∀ e : Montgomery.Curve, (e.decodeF buf).out = e.decode buf) ∧ (∀ P : Montgomery.Point, (P.encodeF c).out = P.encode c) ∧
    (∀ e : Edwards.Curve, (e.decodeF buf).out = e.decode buf) ∧ (∀ P : Edwards.Point, (P.encodeF c).out = P.encode c) :=
  ⟨fun e => out_w_decode e buf, fun P => out_w_encode P c, fun e => out_m_decode e buf, fun P => out_m_encode P c, fun e => out_e_decode e buf,
    fun P => out_e_encode P c⟩

/-- C114, encoding: one inversion and two products (three on Edwards curves) for every point, the identity included, in either format. -/
theorem C114_encode (p : ℕ) (hp : 2 ≤ p) (c : Bool) :
    (∀ P, WOver p P → (P.encodeF c).ops = [.pow (p - 2), .mul, .mul]) ∧ (∀ P, MOver p P → (P.encodeF c).ops = [.pow (p - 2), .mul, .mul]) ∧
    (∀ P, EOver p P → (P.encodeF c).ops = [.pow (p - 2), .mul, .mul, .mul]) :=
  ⟨fun _ h => w_encode (f := Fp.new p) hp h.coords c, fun _ h => m_encode (f := Fp.new p) hp h.coords c, fun _ h => e_encode (f := Fp.new p) hp h.coords c⟩

theorem tag_choice {r : FpElt} {A B : List FpOp} {ops : Byte → List FpOp}
    (h : ∀ t : Byte, t = 2 ∨ t = 3 → ops t = A ++ ((if t ≠ UInt8.ofNat (signBit r.sgn0 + 2) then [.neg] else []) ++ B)) :
    (ops 2 = A ++ B ∧ ops 3 = A ++ [.neg] ++ B) ∨ (ops 3 = A ++ B ∧ ops 2 = A ++ [.neg] ++ B) := by
  have hb : signBit r.sgn0 = 0 ∨ signBit r.sgn0 = 1 := by
    have : signBit r.sgn0 < 2 := by unfold signBit; omega
    omega
  rcases hb with hb | hb
  · left
    rw [h 2 (Or.inl rfl), h 3 (Or.inr rfl), hb]
    exact ⟨rfl, by rw [List.append_assoc]; rfl⟩
  · right
    rw [h 2 (Or.inl rfl), h 3 (Or.inr rfl), hb]
    exact ⟨rfl, by rw [List.append_assoc]; rfl⟩

/-- C114, Weierstrass: there are lists, which depend on the modulus alone, such that for every curve over the field and every first coordinate below the
modulus, whether or not a point with it exists: of the two compressed encodings with that coordinate, one calls exactly these operations and the other
one calls one negation more. Every uncompressed encoding of two coordinates below the modulus, on the curve or not, calls the same operations. Encodings
that are rejected with an error call none, but for one conversion if the second coordinate is too large. -/
theorem C114_weierstrass : ∃ (tRoot : ℕ → List FpOp) (tPoint : List FpOp),
    (∀ p, 3 ≤ p → p % 4 = 3 ∨ p % 8 = 5 → ∀ e, WCurveOver p e →
      (∀ xs : List Byte, xs.length = e.f.sizeBytes → beValue xs < p →
        ((e.decodeF (2 :: xs)).ops = tRoot p ++ tPoint ∧ (e.decodeF (3 :: xs)).ops = tRoot p ++ [.neg] ++ tPoint) ∨
        ((e.decodeF (3 :: xs)).ops = tRoot p ++ tPoint ∧ (e.decodeF (2 :: xs)).ops = tRoot p ++ [.neg] ++ tPoint)) ∧
      (∀ xs ys : List Byte, xs.length = e.f.sizeBytes → ys.length = e.f.sizeBytes → beValue xs < p → beValue ys < p →
        (e.decodeF (4 :: (xs ++ ys))).ops = [.elt, .elt] ++ tPoint) ∧
      (∀ buf err, e.decode buf = R.ok (.error err) → (e.decodeF buf).ops = if err = .invalidY then [.elt] else [])) ∧
    (∀ p, .neg ∉ tRoot p ∧ (tRoot p).count .mul = if p % 4 = 3 then 2 else 6) ∧ tPoint.count .mul = 7 ∧ tPoint.length = 11 := by
  refine ⟨wRoot, [.elt] ++ wCheck, fun p hp hq e he => ?_, fun p => ?_, by decide, by decide⟩
  · have hi : WIn (Fp.new p) e := ⟨he.f, he.a, he.b⟩
    refine ⟨fun xs hl hv => ?_, fun xs ys hl hl' hv hv' => ?_, fun buf err h => w_decode_error (f := Fp.new p) (by show 0 < p; omega) hi h⟩
    · rw [beValue_eq] at hv
      rw [he.f] at hl
      obtain ⟨r, -, h⟩ := w_decode_compressed (f := Fp.new p) hp hq hi hl hv
      exact tag_choice (ops := fun t => (e.decodeF (t :: xs)).ops) h
    · rw [beValue_eq] at hv hv'
      rw [he.f] at hl hl'
      rw [w_decode_uncompressed (f := Fp.new p) (by show 0 < p; omega) hi hl hl' hv]
      exact if_pos hv'
  · unfold wRoot sqrtOps
    split <;> simp

/-- C114, Montgomery: as for Weierstrass. -/
theorem C114_montgomery : ∃ (tRoot : ℕ → List FpOp) (tPoint : List FpOp),
    (∀ p, 3 ≤ p → p % 4 = 3 ∨ p % 8 = 5 → ∀ e, MCurveOver p e →
      (∀ xs : List Byte, xs.length = e.f.sizeBytes → beValue xs < p →
        ((e.decodeF (2 :: xs)).ops = tRoot p ++ tPoint ∧ (e.decodeF (3 :: xs)).ops = tRoot p ++ [.neg] ++ tPoint) ∨
        ((e.decodeF (3 :: xs)).ops = tRoot p ++ tPoint ∧ (e.decodeF (2 :: xs)).ops = tRoot p ++ [.neg] ++ tPoint)) ∧
      (∀ xs ys : List Byte, xs.length = e.f.sizeBytes → ys.length = e.f.sizeBytes → beValue xs < p → beValue ys < p →
        (e.decodeF (4 :: (xs ++ ys))).ops = [.elt, .elt] ++ tPoint) ∧
      (∀ buf err, e.decode buf = R.ok (.error err) → (e.decodeF buf).ops = if err = .invalidY then [.elt] else [])) ∧
    (∀ p, .neg ∉ tRoot p ∧ (tRoot p).count .mul = if p % 4 = 3 then 4 else 8) ∧ tPoint.count .mul = 8 ∧ tPoint.length = 12 := by
  refine ⟨mRoot, [.elt] ++ mCheck, fun p hp hq e he => ?_, fun p => ?_, by decide, by decide⟩
  · have hi : MIn (Fp.new p) e := ⟨he.f, he.a, he.b, he.s⟩
    refine ⟨fun xs hl hv => ?_, fun xs ys hl hl' hv hv' => ?_, fun buf err h => m_decode_error (f := Fp.new p) (by show 0 < p; omega) hi h⟩
    · rw [beValue_eq] at hv
      rw [he.f] at hl
      obtain ⟨r, -, h⟩ := m_decode_compressed (f := Fp.new p) hp hq hi hl hv
      exact tag_choice (ops := fun t => (e.decodeF (t :: xs)).ops) h
    · rw [beValue_eq] at hv hv'
      rw [he.f] at hl hl'
      rw [m_decode_uncompressed (f := Fp.new p) (by show 0 < p; omega) hi hl hl' hv]
      exact if_pos hv'
  · unfold mRoot sqrtOps
    split <;> simp

/-- C114, Edwards: there are lists, which depend on the modulus alone, such that for every curve over the field and every second coordinate below the
modulus, whether or not a point with it exists: the encodings with that coordinate that differ only in the sign bit both call the operations of the first
list, then one of them those of the second list and the other one a negation before these; or, if the root is 0, the encoding with the sign bit is
rejected after the first list. Encodings that are rejected for another reason call no operation. -/
theorem C114_edwards : ∃ (tRoot : ℕ → List FpOp) (tPoint : List FpOp),
    (∀ p, 3 ≤ p → p % 4 = 3 ∨ p % 8 = 5 → ∀ e, ECurveOver p e →
      (∀ (ys : List Byte) (b s : Byte), 8 * (ys.length + 1) ≥ Big.bits p + 1 → 8 * ys.length < Big.bits p + 1 → b.toNat < 128 → s.toNat = b.toNat + 128 →
        Ed.leValue (ys ++ [b]) < p →
        ((e.decodeF (ys ++ [b])).ops = tRoot p ++ tPoint ∧ (e.decodeF (ys ++ [s])).ops = tRoot p ++ [.neg] ++ tPoint) ∨
        ((e.decodeF (ys ++ [s])).ops = tRoot p ++ tPoint ∧ (e.decodeF (ys ++ [b])).ops = tRoot p ++ [.neg] ++ tPoint) ∨
        ((e.decodeF (ys ++ [b])).ops = tRoot p ++ tPoint ∧ (e.decodeF (ys ++ [s])).ops = tRoot p ∧
          e.decode (ys ++ [s]) = R.ok (.error .sqrtFailed))) ∧
      (∀ buf err, e.decode buf = R.ok (.error err) → (e.decodeF buf).ops = if err = .sqrtFailed then tRoot p else [])) ∧
    (∀ p, (tRoot p).count .neg = 1 ∧ (tRoot p).count .mul = if p % 4 = 3 then 3 else 7) ∧ tPoint.count .mul = 9 ∧ tPoint.length = 14 := by
  refine ⟨eRoot, [.mul] ++ ([.elt] ++ eCheck), fun p hp hq e he => ?_, fun p => ?_, by decide, by decide⟩
  · have hi : EIn (Fp.new p) e := ⟨he.f, he.a, he.d⟩
    refine ⟨fun ys b s hl1 hl2 hb hs hv => ?_, fun buf err h => e_decode_error (f := Fp.new p) hp hq hi h⟩
    rw [Ed.leValue_eq] at hv
    have b1 : b &&& 127 = b := by
      apply UInt8.toNat.inj
      rw [byte_low]; omega
    have s1 : s &&& 127 = b := by
      apply UInt8.toNat.inj
      rw [byte_low]; omega
    have b2 : (b >>> 7) &&& 1 = 0 := by rw [byte_high, Nat.div_eq_of_lt hb]; rfl
    have s2 : (s >>> 7) &&& 1 = 1 := by rw [byte_high, show s.toNat / 128 = 1 by omega]; rfl
    have hl : ys.length + 1 = (Big.bits (Fp.new p).p + 1 + 7) / 8 := by show _ = (Big.bits p + 1 + 7) / 8; omega
    obtain ⟨r, -, h⟩ := e_decode_body (f := Fp.new p) hp hq hi hv
    obtain ⟨-, hB⟩ := h ys b hl (by rw [b1])
    obtain ⟨hS0, hS⟩ := h ys s hl (by rw [s1])
    rw [b2] at hB
    rw [s2] at hS0 hS
    obtain ⟨hB, -⟩ := hB (fun hh => absurd hh.2 (by decide))
    rw [hB]
    by_cases h0 : r.n = 0
    · obtain ⟨h1, h2⟩ := hS0 ⟨h0, rfl⟩
      right; right
      rw [h1]
      refine ⟨?_, rfl, h2⟩
      have : signBit r.sgn0 = 0 := by unfold signBit FpElt.sgn0; rw [h0]; rfl
      rw [this]; rfl
    · obtain ⟨h1, -⟩ := hS (fun hh => h0 hh.1)
      rw [h1]
      have hb : signBit r.sgn0 = 0 ∨ signBit r.sgn0 = 1 := by
        have : signBit r.sgn0 < 2 := by unfold signBit; omega
        omega
      rcases hb with hb | hb <;> rw [hb]
      · left
        exact ⟨rfl, by rw [List.append_assoc]; rfl⟩
      · right; left
        exact ⟨rfl, by rw [List.append_assoc]; rfl⟩
  · unfold eRoot sqrtOps
    split <;> simp

end Redox.Props
