import Verif.Props.FieldParse
import Verif.Props.QuadApi
import Verif.Props.ScalarProps

/-!
# C60–C63: refused operands, field accessors, the exact set of accepted literals, text of scalars
-/

namespace Redox.Props

open Spec

/-! ## C60 -/

/-- C60. The operators with a literal operand accept only the documented literal: `x ^ k` for `k : u32` other than 2,
`x ^ k` for `k : i32` other than -1 and `k / x` for `k : u32` other than 1 panic with their message, for elements of both
field types and for scalars (which have only `/`), whatever the element. -/
theorem C60_refused (x : FpElt) (y : Fp2Elt) (s : Scalar) :
    (∀ k : ℕ, k ≠ 2 → x.powU32 k = R.panic .expSqr ∧ y.powU32 k = R.panic .expSqr) ∧
    (∀ k : ℤ, k ≠ -1 → x.powI32 k = R.panic .expInv ∧ y.powI32 k = R.panic .expInv) ∧
    (∀ k : ℕ, k ≠ 1 → FpElt.u32Div k x = R.panic .invNum ∧ Fp2Elt.u32Div k y = R.panic .invNum ∧
      Scalar.u32Div k s = R.panic .invNum) := by
  refine ⟨fun k hk => ?_, fun k hk => ?_, fun k hk => ?_⟩
  · have : (k == 2) = false := by simpa using hk
    simp [FpElt.powU32, Fp2Elt.powU32, this]
  · have : (k == -1) = false := by simpa using hk
    simp [FpElt.powI32, Fp2Elt.powI32, this]
  · have : (k == 1) = false := by simpa using hk
    simp [FpElt.u32Div, Fp2Elt.u32Div, Scalar.u32Div, this]

/-- C60, the accepted literals: they are the square and the inverse used by `/`. -/
theorem C60_accepted (x : FpElt) (y : Fp2Elt) (s : Scalar) :
    x.powU32 2 = x.mul x ∧ y.powU32 2 = y.mul y ∧
    x.powI32 (-1) = FpElt.u32Div 1 x ∧ y.powI32 (-1) = Fp2Elt.u32Div 1 y ∧
    (∀ w : FpElt, w.div x = (FpElt.u32Div 1 x >>= fun i => w.mul i)) ∧
    (∀ w : Fp2Elt, w.div y = (Fp2Elt.u32Div 1 y >>= fun i => w.mul i)) ∧
    (∀ w : Scalar, w.div s = (Scalar.u32Div 1 s >>= fun i => w.mul i)) := by
  simp [FpElt.powU32, Fp2Elt.powU32, FpElt.powI32, Fp2Elt.powI32, FpElt.u32Div, Fp2Elt.u32Div, Scalar.u32Div,
    FpElt.div, Fp2Elt.div, Scalar.div]

/-- C60, generic constants: `Zero::zero()` and `One::one()` of the two element types, which have no field to refer to,
always panic. -/
theorem C60_static : FpElt.staticZero = R.panic .unimplemented ∧ FpElt.staticOne = R.panic .unimplemented ∧
    Fp2Elt.staticZero = R.panic .unimplemented ∧ Fp2Elt.staticOne = R.panic .unimplemented := by
  refine ⟨rfl, rfl, rfl, rfl⟩

example : (FpElt.mk 3 ⟨7⟩).powU32 3 = R.panic .expSqr ∧ (FpElt.mk 3 ⟨7⟩).powU32 2 = R.ok ⟨2, ⟨7⟩⟩ ∧
    FpElt.u32Div 2 ⟨3, ⟨7⟩⟩ = R.panic .invNum ∧ FpElt.u32Div 1 ⟨3, ⟨7⟩⟩ = R.ok ⟨5, ⟨7⟩⟩ := by
  refine ⟨?_, ?_, ?_, ?_⟩ <;> decide +kernel

/-! ## C61 -/

/-- C61, prime field: `get_modulus` returns the modulus given to `new`; `size_bytes` is the least number of bytes that can
hold it; `zero()` and `one()` are neutral; `is_one`, `set_zero`, `set_one`, `cmov` do what their names say; two fields are
equal exactly when their moduli are. -/
theorem C61_prime (p : ℕ) (hp : 2 ≤ p) (x y : FpElt) (hx : Canon p x) (hy : Canon p y) :
    (Fp.new p).getModulus = p ∧ p < 256 ^ (Fp.new p).sizeBytes ∧ 256 ^ ((Fp.new p).sizeBytes - 1) ≤ p ∧
    (∃ z, (Fp.new p).zero = R.ok z ∧ Canon p z ∧ z.isZero = true ∧ x.add z = R.ok x ∧ x.mul z = R.ok z ∧
      x.setZero = z) ∧
    (∃ u, (Fp.new p).one = R.ok u ∧ Canon p u ∧ u.isOne = true ∧ x.mul u = R.ok x ∧ x.setOne = u) ∧
    (x.isOne = true ↔ val p x = 1) ∧ (x.isZero = true ↔ val p x = 0) ∧
    FpElt.cmov x y true = y ∧ FpElt.cmov x y false = x ∧
    (∀ q, Fp.new p = Fp.new q ↔ p = q) := by
  haveI : NeZero p := ⟨by omega⟩
  haveI : Fact (1 < p) := ⟨hp⟩
  obtain ⟨x, rfl⟩ := canon_iff.1 hx
  obtain ⟨y, rfl⟩ := canon_iff.1 hy
  have hp0 : p ≠ 0 := by omega
  have hlog : Big.bits p = p.log2 + 1 := by simp [Big.bits, hp0]
  refine ⟨rfl, ?_, ?_, ?_, ?_, ?_, ?_, rfl, rfl, ?_⟩
  · rw [Fp.sizeBytes, Fp.new, hlog, show (256 : ℕ) = 2 ^ 8 by norm_num, ← pow_mul]
    exact lt_of_lt_of_le Nat.lt_log2_self (Nat.pow_le_pow_right (by omega) (by omega))
  · rw [Fp.sizeBytes, Fp.new, hlog, show (256 : ℕ) = 2 ^ 8 by norm_num, ← pow_mul]
    exact le_trans (Nat.pow_le_pow_right (by omega) (by omega)) (Nat.log2_self_le hp0)
  · refine ⟨el 0, by simp [Fp.new], canon_el _, by simp [isZero_el_iff], by simp, by simp, ?_⟩
    simp [FpElt.setZero, el]
  · refine ⟨el 1, by simp [Fp.new], canon_el _, by simp, by simp, by simp⟩
  · simp
  · simp [isZero_el_iff]
  · intro q; simp [Fp.new]

/-- C61, quadratic field: `get_modulus` returns the modulus of the base field; `size_bytes` is twice that of the base field
(the length of every serialized element, C17); `zero()` and `one()` are neutral; `is_zero`, `is_one`, `set_zero`, `set_one`,
`cmov` do what their names say; two fields are equal exactly when their moduli are. -/
theorem C61_quad (p : ℕ) (hp : 2 ≤ p) (x y : Fp2Elt) (hx : Canon2 p x) (hy : Canon2 p y) :
    (Fp2.new p).getModulus = p ∧ (Fp2.new p).sizeBytes = 2 * (Fp.new p).sizeBytes ∧
    (∃ z, (Fp2.new p).zero = R.ok z ∧ Canon2 p z ∧ z.isZero = true ∧ x.add z = R.ok x ∧ x.mul z = R.ok z ∧
      x.setZero = z) ∧
    (∃ u, (Fp2.new p).one = R.ok u ∧ Canon2 p u ∧ u.isOne = true ∧ x.mul u = R.ok x ∧ x.setOne = u) ∧
    (x.isOne = true ↔ val2 p x = 1) ∧ (x.isZero = true ↔ val2 p x = 0) ∧
    Fp2Elt.cmov x y true = y ∧ Fp2Elt.cmov x y false = x ∧
    (∀ q, Fp2.new p = Fp2.new q ↔ p = q) := by
  have : NeZero p := ⟨by omega⟩
  have : Fact (1 < p) := ⟨hp⟩
  obtain ⟨x, rfl⟩ := canon2_iff.1 hx
  refine ⟨rfl, rfl, ?_, ?_, ?_, ?_, rfl, rfl, ?_⟩
  · refine ⟨el2 0, by simp [Fp2.new, Fp.new, Fp2.zero, Fp2.elt, el2], canon2_iff.2 ⟨_, rfl⟩, ?_, ?_, ?_, ?_⟩
    · simp [Fp2Elt.isZero, el2]
    · have := (C13_ring p (by omega) (el2 x) (el2 0) (canon2_iff.2 ⟨_, rfl⟩) (canon2_iff.2 ⟨_, rfl⟩)).1
      rwa [val2_el2, val2_el2, returns2_iff, add_zero] at this
    · rw [mul_el2, mul_zero]
    · simp [Fp2Elt.setZero, FpElt.setZero, el2, el]
  · refine ⟨el2 1, by simp [Fp2.new, Fp.new, Fp2.one, Fp2.elt, el2, QuadraticAlgebra.re_one, QuadraticAlgebra.im_one], canon2_iff.2 ⟨_, rfl⟩, ?_, ?_, ?_⟩
    · simp [Fp2Elt.isOne, el2, QuadraticAlgebra.re_one, QuadraticAlgebra.im_one]
    · rw [mul_el2, mul_one]
    · simp [Fp2Elt.setOne, el2, QuadraticAlgebra.re_one, QuadraticAlgebra.im_one]
  · rw [val2_el2, QuadraticAlgebra.ext_iff]
    simp [Fp2Elt.isOne, el2, QuadraticAlgebra.re_one, QuadraticAlgebra.im_one]
  · rw [val2_el2, QuadraticAlgebra.ext_iff]
    simp [Fp2Elt.isZero, el2]
  · intro q; simp [Fp2.new, Fp.new]

/-- C61: the elements made from integers of the eight primitive types, and from big integers, are the residues of the integers. -/
theorem C61_from (p : ℕ) (hp : 1 ≤ p) (n : ℤ) :
    Returns p ((Fp.new p).fromPrim n) (n : ZMod p) ∧ Returns p ((Fp.new p).elt n) (n : ZMod p) ∧
    Returns2 p ((Fp2.new p).fromPrim n) ⟨n, 0⟩ ∧ Returns2 p ((Fp2.new p).elt n) ⟨n, 0⟩ := by
  have : NeZero p := ⟨by omega⟩
  have h2 : Returns2 p ((Fp2.new p).elt n) ⟨n, 0⟩ := by
    rw [returns2_iff]; simp [Fp2.elt, Fp2.new, Fp.new, el2]
  have h1 : Returns p ((Fp.new p).elt n) (n : ZMod p) := by
    rw [returns_iff]; simp [Fp.new]
  exact ⟨h1, h1, h2, h2⟩

example : Canon 257 ⟨5, ⟨257⟩⟩ ∧ (Fp.new 257).sizeBytes = 2 ∧ (Fp.new 255).sizeBytes = 1 ∧ (Fp2.new 257).sizeBytes = 4 := by
  refine ⟨⟨rfl, by decide, by decide⟩, ?_, ?_, ?_⟩ <;> decide +kernel

/-! ## C62

Specification of the accepted texts. -/

/-- A position of the body of a literal: a digit or an underscore. -/
def bodyChar : Option (ℕ × Bool) → Byte
  | none => 95
  | some d => digitChar d

/-- A body: digits below the radix and underscores, not starting with an underscore, not empty. -/
def IsBody (radix : ℕ) (body : List (Option (ℕ × Bool))) : Prop :=
  body ≠ [] ∧ body.head? ≠ some none ∧ ∀ d, some d ∈ body → d.1 < radix

/-- `s` is a literal denoting `v`: empty (zero), or an optional minus, one of the four prefixes, an optional second sign,
and a body. -/
def IsLiteral (s : List Byte) (v : ℤ) : Prop :=
  (s = [] ∧ v = 0) ∨
  ∃ (neg : Bool) (form : ℕ × List Byte) (sign : List Byte) (body : List (Option (ℕ × Bool))),
    form ∈ literalForms ∧ sign ∈ [[], ascii! "+", ascii! "-"] ∧ IsBody form.1 body ∧
    s = (if neg then ascii! "-" else []) ++ form.2 ++ sign ++ body.map bodyChar ∧
    v = (if neg then -1 else 1) * ((if sign = ascii! "-" then -1 else 1) * litValue form.1 (body.filterMap id))

theorem exists_digitChar (c : Byte) (h : Big.digitVal c < 16) : ∃ d : ℕ × Bool, digitChar d = c ∧ d.1 = Big.digitVal c := by
  have key : ∀ n < 256, Big.digitVal (UInt8.ofNat n) < 16 →
      digitChar (Big.digitVal (UInt8.ofNat n), decide (n < 97)) = UInt8.ofNat n := by decide +kernel
  have := key c.toNat c.toNat_lt (by simpa using h)
  exact ⟨_, by simpa using this, by simp⟩

theorem parseDigits_body (radix : ℕ) (hr : radix ≤ 16) : ∀ (body : List (Option (ℕ × Bool))) (acc : ℕ),
    (∀ d, some d ∈ body → d.1 < radix) →
    Big.parseDigits radix (body.map bodyChar) acc =
      some ((body.filterMap id).foldl (fun acc d => acc * radix + d.1) acc)
  | [], acc, _ => by simp [Big.parseDigits]
  | none :: body, acc, h => by
    simp only [List.map_cons, bodyChar, Big.parseDigits, if_true, List.filterMap_cons, id]
    exact parseDigits_body radix hr body _ (fun d hd => h d (by simp [hd]))
  | some d :: body, acc, h => by
    have hd : d.1 < radix := h d (by simp)
    have hp := digitChar_props d (by omega)
    simp only [List.map_cons, bodyChar, Big.parseDigits, if_neg hp.1, digitVal_digitChar d (by omega), if_pos hd,
      List.foldl_cons, List.filterMap_cons, id]
    exact parseDigits_body radix hr body _ (fun d hd => h d (by simp [hd]))

theorem parseDigits_some (radix : ℕ) (hr : radix ≤ 16) : ∀ (s : List Byte) (acc n : ℕ),
    Big.parseDigits radix s acc = some n → ∃ body : List (Option (ℕ × Bool)), s = body.map bodyChar ∧
      (∀ d, some d ∈ body → d.1 < radix)
  | [], acc, n, _ => ⟨[], rfl, by simp⟩
  | c :: cs, acc, n, h => by
    rw [Big.parseDigits] at h
    split_ifs at h with h1 h2
    · obtain ⟨body, rfl, hb⟩ := parseDigits_some radix hr cs _ _ h
      exact ⟨none :: body, by simp [bodyChar, h1], by simpa using hb⟩
    · obtain ⟨body, rfl, hb⟩ := parseDigits_some radix hr cs _ _ h
      obtain ⟨d, rfl, hd⟩ := exists_digitChar c (by omega)
      refine ⟨some d :: body, by simp [bodyChar], ?_⟩
      intro e he
      rcases List.mem_cons.1 he with he | he
      · rw [Option.some.injEq] at he; subst he; omega
      · exact hb e he

theorem bodyChar_props (radix : ℕ) (hr : radix ≤ 16) (o : Option (ℕ × Bool)) (h : ∀ d, o = some d → d.1 < radix) :
    bodyChar o ≠ 43 ∧ bodyChar o ≠ 45 ∧ bodyChar o ≠ 120 ∧ bodyChar o ≠ 111 ∧ (bodyChar o).toNat / 64 ≠ 2 ∧
      (o ≠ none → bodyChar o ≠ 95) := by
  cases o with
  | none => simp [bodyChar]
  | some d =>
    have := digitChar_props d (by have := h d rfl; omega)
    exact ⟨this.2.1, this.2.2.1, this.2.2.2.1, this.2.2.2.2.1, this.2.2.2.2.2, fun _ => this.1⟩

theorem parseNat_body (radix : ℕ) (hr : radix ≤ 16) (plus : Bool) (body : List (Option (ℕ × Bool)))
    (hb : IsBody radix body) :
    Big.parseNat radix ((if plus then [43] else []) ++ body.map bodyChar) = some (litValue radix (body.filterMap id)) := by
  obtain ⟨hne, hh, hd⟩ := hb
  obtain ⟨o, body, rfl⟩ := List.exists_cons_of_ne_nil hne
  have hp := bodyChar_props radix hr o (fun d h => hd d (by simp [h]))
  have ho : o ≠ none := by simpa using hh
  have h95 := hp.2.2.2.2.2 ho
  have hpd := parseDigits_body radix hr (o :: body) 0 hd
  rw [litValue, ← hpd]
  rw [List.map_cons]
  generalize bodyChar o = c at *
  cases plus
  · simp only [Bool.false_eq_true, if_false, List.nil_append]
    unfold Big.parseNat
    split
    · rename_i heq; simp only [List.cons.injEq] at heq; exact absurd heq.1 hp.1
    · dsimp only
      split
      · rename_i heq2; cases heq2
      · rename_i heq2; simp only [List.cons.injEq] at heq2; exact absurd heq2.1 h95
      · rfl
  · simp only [if_true, List.cons_append, List.nil_append]
    unfold Big.parseNat
    split
    · rename_i t heq
      simp only [List.cons.injEq, true_and] at heq
      subst heq
      rw [List.head?_cons, if_neg (by simpa using hp.1)]
      dsimp only
      split
      · rename_i heq2; cases heq2
      · rename_i heq2; simp only [List.cons.injEq] at heq2; exact absurd heq2.1 h95
      · rfl
    · rename_i hne'; exact absurd rfl (hne' _)

theorem parseNat_some (radix : ℕ) (hr : radix ≤ 16) (s : List Byte) (n : ℕ) (h : Big.parseNat radix s = some n) :
    ∃ (plus : Bool) (body : List (Option (ℕ × Bool))), IsBody radix body ∧
      s = (if plus then [43] else []) ++ body.map bodyChar := by
  have core : ∀ t : List Byte, (match t with | [] => none | 95 :: _ => none | _ => Big.parseDigits radix t 0) = some n →
      ∃ body : List (Option (ℕ × Bool)), IsBody radix body ∧ t = body.map bodyChar := by
    intro t ht
    split at ht
    · cases ht
    · cases ht
    · rename_i h0 h1
      obtain ⟨body, rfl, hb⟩ := parseDigits_some radix hr _ _ _ ht
      refine ⟨body, ⟨?_, ?_, hb⟩, rfl⟩
      · rintro rfl; exact h0 rfl
      · intro hh
        cases body with
        | nil => cases hh
        | cons o body =>
          simp only [List.head?_cons, Option.some.injEq] at hh
          subst hh
          exact h1 (body.map bodyChar) rfl
  unfold Big.parseNat at h
  dsimp only at h
  obtain ⟨body, hb, ht⟩ := core _ h
  split at ht
  · rename_i t
    split_ifs at ht with h1
    · exfalso
      obtain ⟨o, body, rfl⟩ := List.exists_cons_of_ne_nil hb.1
      simp only [List.map_cons, List.cons.injEq] at ht
      exact (bodyChar_props radix hr o (fun d h => hb.2.2 d (by simp [h]))).1 ht.1.symm
    · exact ⟨true, body, hb, by simp [← ht]⟩
  · exact ⟨false, body, hb, by simp [← ht]⟩

/-- What `BigInt::parse_bytes` accepts and returns. -/
theorem parseInt_iff (radix : ℕ) (hr : radix ≤ 16) (s : List Byte) (z : ℤ) :
    Big.parseInt radix s = some z ↔ ∃ (sign : List Byte) (body : List (Option (ℕ × Bool))),
      sign ∈ [[], ascii! "+", ascii! "-"] ∧ IsBody radix body ∧ s = sign ++ body.map bodyChar ∧
      z = (if sign = ascii! "-" then -1 else 1) * litValue radix (body.filterMap id) := by
  constructor
  · intro h
    unfold Big.parseInt at h
    split at h
    · rename_i t
      split_ifs at h with h1
      · rw [Option.map_eq_some_iff] at h
        obtain ⟨n, hn, -⟩ := h
        exfalso
        obtain ⟨plus, body, hb, ht⟩ := parseNat_some radix hr _ _ hn
        cases plus
        · obtain ⟨o, body, rfl⟩ := List.exists_cons_of_ne_nil hb.1
          simp only [Bool.false_eq_true, if_false, List.nil_append, List.map_cons, List.cons.injEq] at ht
          exact (bodyChar_props radix hr o (fun d h => hb.2.2 d (by simp [h]))).2.1 ht.1.symm
        · simp at ht
      · rw [Option.map_eq_some_iff] at h
        obtain ⟨n, hn, rfl⟩ := h
        obtain ⟨plus, body, hb, ht⟩ := parseNat_some radix hr _ _ hn
        cases plus
        · have := parseNat_body radix hr false body hb
          simp only [Bool.false_eq_true, if_false, List.nil_append] at ht this
          rw [← ht, hn, Option.some.injEq] at this
          exact ⟨ascii! "-", body, by simp, hb, by simp [ht], by simp [this]⟩
        · exfalso; apply h1; simp [ht]
    · rename_i hnm
      rw [Option.map_eq_some_iff] at h
      obtain ⟨n, hn, rfl⟩ := h
      obtain ⟨plus, body, hb, ht⟩ := parseNat_some radix hr _ _ hn
      have := parseNat_body radix hr plus body hb
      rw [← ht, hn, Option.some.injEq] at this
      refine ⟨if plus then ascii! "+" else [], body, ?_, hb, ?_, ?_⟩
      · cases plus <;> simp
      · rw [ht]
      · cases plus <;> simp [this]
  · rintro ⟨sign, body, hs, hb, rfl, rfl⟩
    obtain ⟨o, body', hbo⟩ := List.exists_cons_of_ne_nil hb.1
    have hp := bodyChar_props radix hr o (fun d h => hb.2.2 d (by simp [hbo, h]))
    have hpos : ∀ (plus : Bool), Big.parseInt radix ((if plus then [43] else []) ++ body.map bodyChar) =
        some (litValue radix (body.filterMap id) : ℤ) := by
      intro plus
      have := parseNat_body radix hr plus body hb
      unfold Big.parseInt
      split
      · rename_i t heq
        exfalso
        cases plus
        · simp only [hbo, Bool.false_eq_true, if_false, List.nil_append, List.map_cons, List.cons.injEq] at heq
          exact hp.2.1 heq.1
        · simp at heq
      · rw [this]; rfl
    simp only [List.mem_cons, List.not_mem_nil, or_false] at hs
    rcases hs with rfl | rfl | rfl
    · simpa using hpos false
    · simpa using hpos true
    · have := parseNat_body radix hr false body hb
      simp only [Bool.false_eq_true, if_false, List.nil_append] at this
      simp only [List.cons_append, List.nil_append, Big.parseInt]
      rw [if_neg, this]
      · simp
      · rw [hbo, List.map_cons, List.head?_cons, Option.some.injEq]; exact hp.1

/-- The part of `from(&str)` after the sign. -/
def afterSign (f : Fp) (neg : ℤ) (sl : List Byte) : R FpElt := do
  let (radix, sl) ←
    if 1 < sl.length then do
      strBoundary sl 2
      if sl.take 2 = ascii! "0o" then pure (8, sl.drop 2)
      else if sl.take 2 = ascii! "0x" then pure (16, sl.drop 2)
      else if sl.take 2 = ascii! "0b" then pure (2, sl.drop 2)
      else pure (10, sl)
    else pure (10, sl)
  match Big.parseInt radix sl with
  | some v => f.elt (neg * v)
  | none => R.panic .unwrapNone

theorem fromStr_eq (f : Fp) (s : List Byte) : f.fromStr s =
    if s = [] then f.zero else if s.head? = some 45 then afterSign f (-1) (s.drop 1) else afterSign f 1 s := by
  by_cases h0 : s = []
  · rw [Fp.fromStr, if_pos h0, if_pos h0]
  · by_cases h45 : s.head? = some 45
    · rw [Fp.fromStr, if_neg h0, if_neg h0, if_pos h45, if_pos h45]; rfl
    · rw [Fp.fromStr, if_neg h0, if_neg h0, if_neg h45, if_neg h45]; rfl

theorem parse_ascii (radix : ℕ) (hr : radix ≤ 16) (s : List Byte) (z : ℤ) (h : Big.parseInt radix s = some z) :
    ∀ b ∈ s, b.toNat / 64 ≠ 2 ∧ b ≠ 120 ∧ b ≠ 111 := by
  obtain ⟨sign, body, hs, hb, rfl, -⟩ := (parseInt_iff radix hr s z).1 h
  intro b hb'
  rcases List.mem_append.1 hb' with hb' | hb'
  · simp only [List.mem_cons, List.not_mem_nil, or_false] at hs
    rcases hs with rfl | rfl | rfl <;> simp at hb' <;> subst hb' <;> decide
  · obtain ⟨o, ho, rfl⟩ := List.mem_map.1 hb'
    have := bodyChar_props radix hr o (fun d h => hb.2.2 d (h ▸ ho))
    exact ⟨this.2.2.2.2.1, this.2.2.1, this.2.2.2.1⟩

theorem parse_no_b (s : List Byte) (z : ℤ) (h : Big.parseInt 10 s = some z) : ∀ b ∈ s, b ≠ 98 := by
  obtain ⟨sign, body, hs, hb, rfl, -⟩ := (parseInt_iff 10 (by omega) s z).1 h
  intro b hb'
  rcases List.mem_append.1 hb' with hb' | hb'
  · simp only [List.mem_cons, List.not_mem_nil, or_false] at hs
    rcases hs with rfl | rfl | rfl <;> simp at hb' <;> subst hb' <;> decide
  · obtain ⟨o, ho, rfl⟩ := List.mem_map.1 hb'
    cases o with
    | none => simp [bodyChar]
    | some d => exact digitChar_ne_b d (hb.2.2 d ho)

theorem strBoundary_ok (s : List Byte) (h2 : 2 ≤ s.length) (h : ∀ b, s[2]? = some b → b.toNat / 64 ≠ 2) :
    strBoundary s 2 = R.ok () := by
  unfold strBoundary
  rw [if_neg (by omega)]
  split
  · rename_i b hb; rw [if_neg (h b hb)]
  · rfl

theorem afterSign_iff (f : Fp) (neg : ℤ) (sl : List Byte) (x : FpElt) :
    afterSign f neg sl = R.ok x ↔ ∃ form ∈ literalForms, ∃ rest z, sl = form.2 ++ rest ∧
      Big.parseInt form.1 rest = some z ∧ f.elt (neg * z) = R.ok x := by
  constructor
  · intro h
    unfold afterSign at h
    have fin : ∀ radix rest, (match Big.parseInt radix rest with
        | some v => f.elt (neg * v) | none => R.panic .unwrapNone) = R.ok x →
        ∃ z, Big.parseInt radix rest = some z ∧ f.elt (neg * z) = R.ok x := by
      intro radix rest h
      split at h
      · rename_i v hv; exact ⟨v, hv, h⟩
      · cases h
    have split2 : ∀ pre : List Byte, sl.take 2 = pre → sl = pre ++ sl.drop 2 := by
      intro pre hp; rw [← hp, List.take_append_drop]
    split_ifs at h with h1 h2 h3 h4
    · obtain ⟨_, -, h⟩ := R.bind_eq_ok.1 h
      obtain ⟨z, hz, hx⟩ := fin _ _ h
      exact ⟨(8, ascii! "0o"), by simp [literalForms], _, z, split2 _ h2, hz, hx⟩
    · obtain ⟨_, -, h⟩ := R.bind_eq_ok.1 h
      obtain ⟨z, hz, hx⟩ := fin _ _ h
      exact ⟨(16, ascii! "0x"), by simp [literalForms], _, z, split2 _ h3, hz, hx⟩
    · obtain ⟨_, -, h⟩ := R.bind_eq_ok.1 h
      obtain ⟨z, hz, hx⟩ := fin _ _ h
      exact ⟨(2, ascii! "0b"), by simp [literalForms], _, z, split2 _ h4, hz, hx⟩
    · obtain ⟨_, -, h⟩ := R.bind_eq_ok.1 h
      obtain ⟨z, hz, hx⟩ := fin _ _ h
      exact ⟨(10, []), by simp [literalForms], _, z, rfl, hz, hx⟩
    · obtain ⟨z, hz, hx⟩ := fin _ _ h
      exact ⟨(10, []), by simp [literalForms], _, z, rfl, hz, hx⟩
  · rintro ⟨form, hf, rest, z, rfl, hz, hx⟩
    have hr : form.1 ≤ 16 := by
      simp only [literalForms, List.mem_cons, List.not_mem_nil, or_false] at hf
      rcases hf with rfl | rfl | rfl | rfl <;> simp
    have hasc := parse_ascii form.1 hr rest z hz
    simp only [literalForms, List.mem_cons, List.not_mem_nil, or_false] at hf
    rcases hf with rfl | rfl | rfl | rfl
    · simp only [List.nil_append] at hz ⊢
      unfold afterSign
      by_cases h1 : 1 < rest.length
      · rw [if_pos h1, strBoundary_ok rest (by omega) (fun b hb => (hasc b (List.mem_of_getElem? hb)).1)]
        match rest, h1 with
        | c0 :: c1 :: cs, _ =>
          have e1 := hasc c1 (by simp)
          have e2 := parse_no_b _ _ hz c1 (by simp)
          simp only [List.take_succ_cons, List.take_zero, List.cons.injEq, e1.2.1, e1.2.2, e2, and_false, false_and,
            if_false, R.ok_bind, R.pure_eq, hz, hx]
      · rw [if_neg h1]
        simp only [R.ok_bind, R.pure_eq, hz, hx]
    all_goals
      unfold afterSign
      rw [if_pos (by simp), strBoundary_ok _ (by simp) (fun b hb => by
        simp only [List.cons_append, List.nil_append, List.getElem?_cons_succ] at hb
        exact (hasc b (List.mem_of_getElem? hb)).1)]
      simp [hz, hx]

/-- C62. `from(&str)` returns an element exactly for the literals above, and that element is the one of the denoted
integer; on every other string it panics. -/
theorem C62_literals (p : ℕ) (hp : 1 ≤ p) (s : List Byte) :
    (∀ v, IsLiteral s v → (Fp.new p).fromStr s = (Fp.new p).elt v ∧ ∃ x, (Fp.new p).elt v = R.ok x) ∧
    ((∀ v, ¬ IsLiteral s v) → ∃ why, (Fp.new p).fromStr s = R.panic why) := by
  haveI : NeZero p := ⟨by omega⟩
  have hel : ∀ v : ℤ, (Fp.new p).elt v = R.ok (el (v : ZMod p)) := fun v => by simp [Fp.new]
  constructor
  · rintro v hv
    refine ⟨?_, _, hel v⟩
    rcases hv with ⟨rfl, rfl⟩ | ⟨neg, form, sign, body, hf, hs, hb, rfl, rfl⟩
    · simp [Fp.fromStr, Fp.zero]
    · have hr : form.1 ≤ 16 := by
        simp only [literalForms, List.mem_cons, List.not_mem_nil, or_false] at hf
        rcases hf with rfl | rfl | rfl | rfl <;> simp
      have hz := (parseInt_iff form.1 hr (sign ++ body.map bodyChar) _).2 ⟨sign, body, hs, hb, rfl, rfl⟩
      have main : ∀ ng : ℤ, afterSign (Fp.new p) ng (form.2 ++ (sign ++ body.map bodyChar)) = (Fp.new p).elt _ :=
        fun ng => (hel _).symm ▸ (afterSign_iff (Fp.new p) ng _ _).2 ⟨form, hf, _, _, rfl, hz, hel _⟩
      have hne : form.2 ++ (sign ++ body.map bodyChar) ≠ [] := by simp [hb.1]
      cases neg
      · simp only [Bool.false_eq_true, if_false, List.nil_append, List.append_assoc, one_mul]
        rw [fromStr_eq, if_neg hne]
        by_cases h45 : (form.2 ++ (sign ++ body.map bodyChar)).head? = some 45
        · rw [if_pos h45]
          -- the sign was read as the leading minus
          have h1 := main 1
          rw [one_mul] at h1
          simp only [literalForms, List.mem_cons, List.not_mem_nil, or_false] at hf hs
          rcases hf with rfl | rfl | rfl | rfl
          · obtain ⟨o, body', hbo⟩ := List.exists_cons_of_ne_nil hb.1
            have hpc := bodyChar_props 10 (by omega) o (fun d h => hb.2.2 d (by simp [hbo, h]))
            rcases hs with rfl | rfl | rfl
            · simp [hbo, hpc.2.1] at h45
            · simp at h45
            · have h2 : afterSign (Fp.new p) (-1) ([] ++ body.map bodyChar) = R.ok _ :=
                (afterSign_iff (Fp.new p) (-1) _ _).2 ⟨(10, []), by simp [literalForms], _, _, rfl,
                  (parseInt_iff 10 (by omega) ([] ++ body.map bodyChar) _).2 ⟨[], body, by simp, hb, rfl, rfl⟩, hel _⟩
              simp only [List.nil_append, List.cons_append, List.drop_succ_cons, List.drop_zero] at h2 ⊢
              rw [h2, hel]
              simp
          all_goals simp at h45
        · rw [if_neg h45]
          have h1 := main 1
          rwa [one_mul] at h1
      · simp only [if_true, List.cons_append, List.nil_append, List.append_assoc]
        rw [fromStr_eq, if_neg (by simp), if_pos (by simp)]
        simp only [List.drop_succ_cons, List.drop_zero]
        exact main (-1)
  · intro hno
    cases hres : (Fp.new p).fromStr s with
    | panic why => exact ⟨why, rfl⟩
    | ok x =>
      exfalso
      rw [fromStr_eq] at hres
      split_ifs at hres with h0 h45
      · exact hno 0 (Or.inl ⟨h0, rfl⟩)
      · obtain ⟨form, hf, rest, z, hsl, hz, -⟩ := (afterSign_iff _ _ _ _).1 hres
        have hr : form.1 ≤ 16 := by
          simp only [literalForms, List.mem_cons, List.not_mem_nil, or_false] at hf
          rcases hf with rfl | rfl | rfl | rfl <;> simp
        obtain ⟨sign, body, hs, hb, rfl, rfl⟩ := (parseInt_iff _ hr _ _).1 hz
        refine hno _ (Or.inr ⟨true, form, sign, body, hf, hs, hb, ?_, rfl⟩)
        cases s with
        | nil => cases h45
        | cons c cs =>
          simp only [List.head?_cons, Option.some.injEq] at h45
          simp only [List.drop_succ_cons, List.drop_zero] at hsl
          simp [h45, hsl]
      · obtain ⟨form, hf, rest, z, hsl, hz, -⟩ := (afterSign_iff _ _ _ _).1 hres
        have hr : form.1 ≤ 16 := by
          simp only [literalForms, List.mem_cons, List.not_mem_nil, or_false] at hf
          rcases hf with rfl | rfl | rfl | rfl <;> simp
        obtain ⟨sign, body, hs, hb, rfl, rfl⟩ := (parseInt_iff _ hr _ _).1 hz
        exact hno _ (Or.inr ⟨false, form, sign, body, hf, hs, hb, by simp [hsl], rfl⟩)

/-- Non-vacuity, with the odd accepted forms: a doubled minus, underscores, a sign after the prefix; and refused ones. -/
theorem isLiteral_no_comma {s : List Byte} {v : ℤ} (h : IsLiteral s v) : ∀ c ∈ s, c ≠ 44 := by
  rcases h with ⟨rfl, -⟩ | ⟨neg, form, sign, body, hf, hs, hb, rfl, -⟩
  · simp
  · have hr : form.1 ≤ 16 ∧ ∀ c ∈ form.2, c ≠ 44 := by
      simp only [literalForms, List.mem_cons, List.not_mem_nil, or_false] at hf
      rcases hf with rfl | rfl | rfl | rfl <;> refine ⟨by simp, by decide⟩
    intro c hc
    simp only [List.mem_append, List.mem_map] at hc
    rcases hc with ((hc | hc) | hc) | ⟨d, hd', rfl⟩
    · cases neg <;> simp at hc
      subst hc; decide
    · exact hr.2 c hc
    · simp only [List.mem_cons, List.not_mem_nil, or_false] at hs
      rcases hs with rfl | rfl | rfl
      · simp at hc
      · simp at hc; subst hc; decide
      · simp at hc; subst hc; decide
    · cases d with
      | none => decide
      | some d => exact digitChar_ne_comma d (by have := hb.2.2 d hd'; omega)

/-- C57, exactly which strings are accepted: two literals of C62 (each possibly empty, which denotes zero) separated by a comma. The element is
the one of the two denoted integers. Every other string panics. -/
theorem C57_literals (p : ℕ) (hp : 1 ≤ p) (s : List Byte) :
    (∀ s₀ s₁ v₀ v₁, s = s₀ ++ ascii! "," ++ s₁ → IsLiteral s₀ v₀ → IsLiteral s₁ v₁ →
      Returns2 p ((Fp2.new p).fromStr s) ⟨(v₀ : ZMod p), (v₁ : ZMod p)⟩) ∧
    ((¬ ∃ s₀ s₁ v₀ v₁, s = s₀ ++ ascii! "," ++ s₁ ∧ IsLiteral s₀ v₀ ∧ IsLiteral s₁ v₁) →
      ∃ why, (Fp2.new p).fromStr s = R.panic why) := by
  haveI : NeZero p := ⟨by omega⟩
  constructor
  · rintro s₀ s₁ v₀ v₁ rfl h0 h1
    have hnc := isLiteral_no_comma h0
    have h0 := ((C62_literals p hp s₀).1 v₀ h0).1
    have h1 := ((C62_literals p hp s₁).1 v₁ h1).1
    have ht : (s₀ ++ ascii! "," ++ s₁).takeWhile (· ≠ 44) = s₀ := by
      rw [List.append_assoc, List.takeWhile_append_of_pos (by simpa using hnc)]
      simp
    have hdw : (s₀ ++ ascii! "," ++ s₁).dropWhile (· ≠ 44) = 44 :: s₁ := by
      rw [List.append_assoc, List.dropWhile_append_of_pos (by simpa using hnc)]
      simp
    rw [returns2_iff, Fp2.fromStr, ht, hdw]
    simp only [Fp.new] at h0 h1
    simp only [Fp2.new, Fp.new, h0, h1, elt_eq, R.ok_bind]
    rfl
  · intro hno
    rw [Fp2.fromStr]
    have hcat := List.takeWhile_append_dropWhile (p := (· ≠ (44 : Byte))) (l := s)
    by_cases h0 : ∃ v, IsLiteral (s.takeWhile (· ≠ 44)) v
    · obtain ⟨v₀, h0⟩ := h0
      obtain ⟨e0, x, hx⟩ := (C62_literals p hp _).1 v₀ h0
      simp only [Fp2.new]
      rw [e0, hx, R.ok_bind]
      cases hd : s.dropWhile (· ≠ 44) with
      | nil => exact ⟨_, rfl⟩
      | cons c s₁ =>
        have hc : c = 44 := by
          have := List.head_dropWhile_not (fun b : Byte => decide (b ≠ 44)) (l := s) (by rw [hd]; simp)
          simp only [hd, List.head_cons] at this
          simpa using this
        obtain ⟨why, hw⟩ := (C62_literals p hp s₁).2 fun v₁ h1 => hno ⟨_, s₁, v₀, v₁, by
          rw [hd, hc] at hcat
          rw [List.append_assoc]
          exact hcat.symm, h0, h1⟩
        simp only [hw]
        exact ⟨why, rfl⟩
    · obtain ⟨why, hw⟩ := (C62_literals p hp (s.takeWhile (· ≠ 44))).2 fun v hv => h0 ⟨v, hv⟩
      simp only [Fp2.new]
      rw [hw]
      exact ⟨why, rfl⟩

/-- Accepted: `","`, which is zero, and `"-0x1_F,+7"`. Refused: a second comma. -/
example : (Fp2.new 257).fromStr (ascii! ",") = (Fp2.new 257).zero ∧
    (Fp2.new 257).fromStr (ascii! "-0x1_F,+7") = R.ok ⟨⟨226, ⟨257⟩⟩, ⟨7, ⟨257⟩⟩, ⟨⟨257⟩⟩⟩ ∧
    (((Fp2.new 257).fromStr (ascii! "1,2,3")).bind fun _ => R.ok ()) ≠ R.ok () := by
  refine ⟨?_, ?_, ?_⟩ <;> decide +kernel

example : IsLiteral (ascii! "--5") 5 ∧ IsLiteral (ascii! "-0x+F_f") (-255) ∧
    (Fp.new 1009).fromStr (ascii! "--5") = R.ok ⟨5, ⟨1009⟩⟩ ∧
    (Fp.new 1009).fromStr (ascii! "-0x+F_f") = R.ok ⟨754, ⟨1009⟩⟩ ∧
    (Fp.new 1009).fromStr (ascii! "0x") = R.panic .unwrapNone ∧
    (Fp.new 1009).fromStr (ascii! "-") = R.panic .unwrapNone ∧
    (Fp.new 1009).fromStr (ascii! "0X10") = R.panic .unwrapNone ∧
    (Fp.new 1009).fromStr (ascii! "_1") = R.panic .unwrapNone := by
  refine ⟨Or.inr ⟨true, (10, []), ascii! "-", [some (5, false)], by simp [literalForms], by simp,
    ⟨by simp, by simp, by simp⟩, by decide, by decide⟩,
    Or.inr ⟨true, (16, ascii! "0x"), ascii! "+", [some (15, true), none, some (15, false)], by simp [literalForms], by simp,
    ⟨by simp, by simp, by simp⟩, by decide, by decide⟩, ?_, ?_, ?_, ?_, ?_, ?_⟩ <;> decide +kernel

end Redox.Props
