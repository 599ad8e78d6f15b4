import Verif.Proofs.FieldTraceOps
import Verif.Props.TraceProps

/-!
# C108: the field operations performed by the group operations

`Model/FieldTrace.lean` adds to each function the list of the field operations it calls. Here: forgetting the list gives the function back, and the list
is the same for all operands.
-/

namespace Redox.Props

open Spec FT

theorem count_flatMap_ladder {tA tD : List FpOp} {a d : ℕ} (hA : tA.count .mul = a) (hD : tD.count .mul = d) :
    ∀ bs : List Bool, (bs.flatMap fun b => tD ++ if b then tA else []).count .mul = d * bs.length + a * bs.count true
  | [] => rfl
  | b :: bs => by
    rw [List.flatMap_cons, List.count_append, count_flatMap_ladder hA hD bs, List.count_append, hD]
    cases b
    · simp; ring
    · simp [hA]; ring

/-- The elements stored in the point and in its curve belong to the field with modulus `p`. -/
structure WOver (p : ℕ) (P : Weierstrass.Point) : Prop where
  f : P.e.f = Fp.new p
  a : P.e.a.f = Fp.new p
  b : P.e.b.f = Fp.new p
  cx : P.c.x.f = Fp.new p
  cy : P.c.y.f = Fp.new p
  cz : P.c.z.f = Fp.new p

theorem WOver.curve {p : ℕ} {P : Weierstrass.Point} (h : WOver p P) : WIn (Fp.new p) P.e := ⟨h.f, h.a, h.b⟩
theorem WOver.coords {p : ℕ} {P : Weierstrass.Point} (h : WOver p P) : WPIn (Fp.new p) P.c := ⟨h.cx, h.cy, h.cz⟩

/-- C108, Weierstrass: forgetting the list of operations gives the functions of the library, for all arguments. -/
theorem C108_weierstrass_same (prof : Profile) (P Q : Weierstrass.Point) (k : Scalar) :
    (P.addF Q).out = P.add Q ∧ P.coreDoublingF.out = P.coreDoubling ∧ P.negF.out = P.neg ∧ (P.subF Q).out = P.sub Q ∧ (P.eqF Q).out = P.eq Q ∧
    P.normalizeF.out = P.normalize ∧ P.e.identityF.out = P.e.identity ∧ (P.mulF prof k).out = P.mul prof k :=
  ⟨out_w_add P Q, out_w_dbl P, out_w_neg P, out_w_sub P Q, out_w_eq P Q, out_w_normalize P, out_w_identity P.e, out_w_mul prof P k⟩

/-- C108, Weierstrass: there are five fixed lists, with 24 products for an addition, 23 for a doubling, 7 for a negation and 4 for a comparison, none
with a power, such that for every modulus, every curve and all points whose elements belong to that field, the operations called are exactly those of
the list. A scalar multiplication that returns calls, besides those of the identity, the operations of a doubling for each binary digit of the scalar
and those of an addition after each digit one. Normalizing calls one power and two products. -/
theorem C108_weierstrass : ∃ tAdd tDbl tNeg tEq tId : List FpOp,
    (∀ p, 0 < p → ∀ P Q : Weierstrass.Point, WOver p P → WOver p Q → P.e = Q.e →
      (P.addF Q).ops = tAdd ∧ P.coreDoublingF.ops = tDbl ∧ P.negF.ops = tNeg ∧ (P.eqF Q).ops = tEq ∧ P.e.identityF.ops = tId ∧
      (∀ N, Q.neg = R.ok N → (P.subF Q).ops = tNeg ++ tAdd) ∧ (2 ≤ p → P.normalizeF.ops = [.pow (p - 2), .mul, .mul]) ∧
      ∀ (prof : Profile) (k : Scalar) (S : Weierstrass.Point), 0 ≤ k.k → k.k.toNat.size < 2 ^ 64 → P.mul prof k = R.ok S →
        (P.mulF prof k).ops = tId ++ (binary k.k.toNat).flatMap fun b => tDbl ++ if b then tAdd else []) ∧
    tAdd.count .mul = 24 ∧ tDbl.count .mul = 23 ∧ tNeg.count .mul = 7 ∧ tEq.count .mul = 4 ∧ tId.count .mul = 7 ∧
    tAdd.length = 52 ∧ tDbl.length = 43 ∧ tNeg.length = 11 ∧ tEq.length = 4 ∧ tId.length = 13 ∧
    (∀ e, .pow e ∉ tAdd ∧ .pow e ∉ tDbl ∧ .pow e ∉ tNeg ∧ .pow e ∉ tEq ∧ .pow e ∉ tId) := by
  refine ⟨wAddC ++ wCheck, wDblC ++ wCheck, [.neg] ++ wCheck, List.replicate 4 .mul, List.replicate 3 .elt ++ wCheck,
    fun p hp P Q hP hQ he => ⟨w_add (f := Fp.new p) hp hP.curve hP.coords hQ.coords he, w_dbl (f := Fp.new p) hp hP.curve hP.coords,
      w_neg (f := Fp.new p) hp hP.curve hP.coords, w_eq (f := Fp.new p) hp hP.coords hQ.coords, w_identity (f := Fp.new p) hp hP.curve, fun N hN => ?_,
      fun h2 => w_normalize (f := Fp.new p) h2 hP.coords, fun prof k S h0 h1 hS => ?_⟩,
    by decide, by decide, by decide, by decide, by decide, by decide, by decide, by decide, by decide, by decide, fun e => ?_⟩
  · have hN' : Q.negF.out = R.ok N := (out_w_neg Q).trans hN
    obtain ⟨h1, h2⟩ := w_neg_in (f := Fp.new p) hp hQ.curve hQ.coords hN'
    rw [Weierstrass.Point.subF, bind_ok hN', w_neg (f := Fp.new p) hp hQ.curve hQ.coords, w_add (f := Fp.new p) hp hP.curve hP.coords h2 (he.trans h1.symm)]
  · obtain ⟨bs, hbs, h⟩ := w_mul (f := Fp.new p) hp hP.curve hP.coords prof k S hS
    rw [h, iterLR_binary h0 h1 hbs]
    rfl
  · refine ⟨?_, ?_, ?_, ?_, ?_⟩ <;> simp [wAddC, wDblC, wCheck]

/-- C108, Weierstrass: hence the field operations called by a multiplication do not depend on the point, nor on the curve: only on the value of the
scalar. -/
theorem C108_weierstrass_mul (prof : Profile) (p q : ℕ) (hp : 0 < p) (hq : 0 < q) (P Q : Weierstrass.Point) (hP : WOver p P) (hQ : WOver q Q)
    (k l : Scalar) (h0 : 0 ≤ k.k) (h1 : k.k.toNat.size < 2 ^ 64) (hkl : k.k = l.k) (S S' : Weierstrass.Point)
    (hS : P.mul prof k = R.ok S) (hS' : Q.mul prof l = R.ok S') : (P.mulF prof k).ops = (Q.mulF prof l).ops := by
  obtain ⟨tA, tD, tN, tE, tI, h, -⟩ := C108_weierstrass
  obtain ⟨-, -, -, -, -, -, -, hm⟩ := h p hp P P hP hP rfl
  obtain ⟨-, -, -, -, -, -, -, hm'⟩ := h q hq Q Q hQ hQ rfl
  rw [hm prof k S h0 h1 hS, hm' prof l S' (hkl ▸ h0) (hkl ▸ h1) hS', hkl]

/-- C108, Weierstrass: the number of field products in a multiplication is 7 plus 23 for each binary digit and 24 for each digit one of the scalar. -/
theorem C108_weierstrass_cost (prof : Profile) (p : ℕ) (hp : 0 < p) (P : Weierstrass.Point) (hP : WOver p P) (k : Scalar) (h0 : 0 ≤ k.k)
    (h1 : k.k.toNat.size < 2 ^ 64) (S : Weierstrass.Point) (hS : P.mul prof k = R.ok S) :
    (P.mulF prof k).ops.count .mul = 7 + 23 * k.k.toNat.size + 24 * k.k.toNat.bits.count true := by
  obtain ⟨tA, tD, tN, tE, tI, h, hA, hD, -, -, hI, -⟩ := C108_weierstrass
  obtain ⟨-, -, -, -, -, -, -, hm⟩ := h p hp P P hP hP rfl
  rw [hm prof k S h0 h1 hS, List.count_append, hI, count_flatMap_ladder hA hD, binary, List.count_reverse, List.length_reverse, Nat.size_eq_bits_len]
  ring

/-- The elements stored in the point and in its curve belong to the field with modulus `p`. -/
structure MOver (p : ℕ) (P : Montgomery.Point) : Prop where
  f : P.e.f = Fp.new p
  a : P.e.a.f = Fp.new p
  b : P.e.b.f = Fp.new p
  s : P.e.s.f = Fp.new p
  cx : P.c.x.f = Fp.new p
  cy : P.c.y.f = Fp.new p
  cz : P.c.z.f = Fp.new p

theorem MOver.curve {p : ℕ} {P : Montgomery.Point} (h : MOver p P) : MIn (Fp.new p) P.e := ⟨h.f, h.a, h.b, h.s⟩
theorem MOver.coords {p : ℕ} {P : Montgomery.Point} (h : MOver p P) : MPIn (Fp.new p) P.c := ⟨h.cx, h.cy, h.cz⟩

/-- C108, Montgomery: forgetting the list of operations gives the functions of the library, for all arguments. -/
theorem C108_montgomery_same (prof : Profile) (P Q : Montgomery.Point) (k : Scalar) :
    (P.addF Q).out = P.add Q ∧ P.negF.out = P.neg ∧ (P.subF Q).out = P.sub Q ∧ (P.eqF Q).out = P.eq Q ∧
    P.normalizeF.out = P.normalize ∧ P.e.identityF.out = P.e.identity ∧ (P.mulF prof k).out = P.mul prof k :=
  ⟨out_m_add P Q, out_m_neg P, out_m_sub P Q, out_m_eq P Q, out_m_normalize P, out_m_identity P.e, out_m_mul prof P k⟩

/-- C108, Montgomery: there are five fixed lists, with 28 products for an addition, 28 for a doubling, 8 for a negation and 4 for a comparison, none
with a power, such that for every modulus, every curve and all points whose elements belong to that field, the operations called are exactly those of
the list. A scalar multiplication that returns calls, besides those of the identity, the operations of a doubling for each binary digit of the scalar
and those of an addition after each digit one. Normalizing calls one power and two products. -/
theorem C108_montgomery : ∃ tAdd tDbl tNeg tEq tId : List FpOp,
    (∀ p, 0 < p → ∀ P Q : Montgomery.Point, MOver p P → MOver p Q → P.e = Q.e →
      (P.addF Q).ops = tAdd ∧ (P.addF P).ops = tDbl ∧ P.negF.ops = tNeg ∧ (P.eqF Q).ops = tEq ∧ P.e.identityF.ops = tId ∧
      (∀ N, Q.neg = R.ok N → (P.subF Q).ops = tNeg ++ tAdd) ∧ (2 ≤ p → P.normalizeF.ops = [.pow (p - 2), .mul, .mul]) ∧
      ∀ (prof : Profile) (k : Scalar) (S : Montgomery.Point), 0 ≤ k.k → k.k.toNat.size < 2 ^ 64 → P.mul prof k = R.ok S →
        (P.mulF prof k).ops = tId ++ (binary k.k.toNat).flatMap fun b => tDbl ++ if b then tAdd else []) ∧
    tAdd.count .mul = 28 ∧ tDbl.count .mul = 28 ∧ tNeg.count .mul = 8 ∧ tEq.count .mul = 4 ∧ tId.count .mul = 8 ∧
    tAdd.length = 51 ∧ tDbl.length = 51 ∧ tNeg.length = 12 ∧ tEq.length = 4 ∧ tId.length = 14 ∧
    (∀ e, .pow e ∉ tAdd ∧ .pow e ∉ tDbl ∧ .pow e ∉ tNeg ∧ .pow e ∉ tEq ∧ .pow e ∉ tId) := by
  refine ⟨mAddC ++ mCheck, mAddC ++ mCheck, [.neg] ++ mCheck, List.replicate 4 .mul, List.replicate 3 .elt ++ mCheck,
    fun p hp P Q hP hQ he => ⟨m_add (f := Fp.new p) hp hP.curve hP.coords hQ.coords he, m_add (f := Fp.new p) hp hP.curve hP.coords hP.coords rfl,
      m_neg (f := Fp.new p) hp hP.curve hP.coords, m_eq (f := Fp.new p) hp hP.coords hQ.coords, m_identity (f := Fp.new p) hp hP.curve, fun N hN => ?_,
      fun h2 => m_normalize (f := Fp.new p) h2 hP.coords, fun prof k S h0 h1 hS => ?_⟩,
    by decide, by decide, by decide, by decide, by decide, by decide, by decide, by decide, by decide, by decide, fun e => ?_⟩
  · have hN' : Q.negF.out = R.ok N := (out_m_neg Q).trans hN
    obtain ⟨h1, h2⟩ := m_neg_in (f := Fp.new p) hp hQ.curve hQ.coords hN'
    rw [Montgomery.Point.subF, bind_ok hN', m_neg (f := Fp.new p) hp hQ.curve hQ.coords, m_add (f := Fp.new p) hp hP.curve hP.coords h2 (he.trans h1.symm)]
  · obtain ⟨bs, hbs, h⟩ := m_mul (f := Fp.new p) hp hP.curve hP.coords prof k S hS
    rw [h, iterLR_binary h0 h1 hbs]
    rfl
  · refine ⟨?_, ?_, ?_, ?_, ?_⟩ <;> simp [mAddC, mCheck]

/-- C108, Montgomery: hence the field operations called by a multiplication do not depend on the point, nor on the curve: only on the value of the
scalar. -/
theorem C108_montgomery_mul (prof : Profile) (p q : ℕ) (hp : 0 < p) (hq : 0 < q) (P Q : Montgomery.Point) (hP : MOver p P) (hQ : MOver q Q)
    (k l : Scalar) (h0 : 0 ≤ k.k) (h1 : k.k.toNat.size < 2 ^ 64) (hkl : k.k = l.k) (S S' : Montgomery.Point)
    (hS : P.mul prof k = R.ok S) (hS' : Q.mul prof l = R.ok S') : (P.mulF prof k).ops = (Q.mulF prof l).ops := by
  obtain ⟨tA, tD, tN, tE, tI, h, -⟩ := C108_montgomery
  obtain ⟨-, -, -, -, -, -, -, hm⟩ := h p hp P P hP hP rfl
  obtain ⟨-, -, -, -, -, -, -, hm'⟩ := h q hq Q Q hQ hQ rfl
  rw [hm prof k S h0 h1 hS, hm' prof l S' (hkl ▸ h0) (hkl ▸ h1) hS', hkl]

/-- C108, Montgomery: the number of field products in a multiplication is 8 plus 28 for each binary digit and 28 for each digit one of the scalar. -/
theorem C108_montgomery_cost (prof : Profile) (p : ℕ) (hp : 0 < p) (P : Montgomery.Point) (hP : MOver p P) (k : Scalar) (h0 : 0 ≤ k.k)
    (h1 : k.k.toNat.size < 2 ^ 64) (S : Montgomery.Point) (hS : P.mul prof k = R.ok S) :
    (P.mulF prof k).ops.count .mul = 8 + 28 * k.k.toNat.size + 28 * k.k.toNat.bits.count true := by
  obtain ⟨tA, tD, tN, tE, tI, h, hA, hD, -, -, hI, -⟩ := C108_montgomery
  obtain ⟨-, -, -, -, -, -, -, hm⟩ := h p hp P P hP hP rfl
  rw [hm prof k S h0 h1 hS, List.count_append, hI, count_flatMap_ladder hA hD, binary, List.count_reverse, List.length_reverse, Nat.size_eq_bits_len]
  ring

/-- The elements stored in the point and in its curve belong to the field with modulus `p`. -/
structure EOver (p : ℕ) (P : Edwards.Point) : Prop where
  f : P.e.f = Fp.new p
  a : P.e.a.f = Fp.new p
  d : P.e.d.f = Fp.new p
  cx : P.c.x.f = Fp.new p
  cy : P.c.y.f = Fp.new p
  ct : P.c.t.f = Fp.new p
  cz : P.c.z.f = Fp.new p

theorem EOver.curve {p : ℕ} {P : Edwards.Point} (h : EOver p P) : EIn (Fp.new p) P.e := ⟨h.f, h.a, h.d⟩
theorem EOver.coords {p : ℕ} {P : Edwards.Point} (h : EOver p P) : EPIn (Fp.new p) P.c := ⟨h.cx, h.cy, h.ct, h.cz⟩

/-- C108, Edwards: forgetting the list of operations gives the functions of the library, for all arguments. -/
theorem C108_edwards_same (prof : Profile) (P Q : Edwards.Point) (k : Scalar) :
    (P.addF Q).out = P.add Q ∧ P.negF.out = P.neg ∧ (P.subF Q).out = P.sub Q ∧ (P.eqF Q).out = P.eq Q ∧
    P.normalizeF.out = P.normalize ∧ P.e.identityF.out = P.e.identity ∧ (P.mulF prof k).out = P.mul prof k :=
  ⟨out_e_add P Q, out_e_neg P, out_e_sub P Q, out_e_eq P Q, out_e_normalize P, out_e_identity P.e, out_e_mul prof P k⟩

/-- C108, Edwards: there are five fixed lists, with 19 products for an addition, 19 for a doubling, 8 for a negation and 6 for a comparison, none
with a power, such that for every modulus, every curve and all points whose elements belong to that field, the operations called are exactly those of
the list. A scalar multiplication that returns calls, besides those of the identity, the operations of a doubling for each binary digit of the scalar
and those of an addition after each digit one. Normalizing calls one power and three products. -/
theorem C108_edwards : ∃ tAdd tDbl tNeg tEq tId : List FpOp,
    (∀ p, 0 < p → ∀ P Q : Edwards.Point, EOver p P → EOver p Q → P.e = Q.e →
      (P.addF Q).ops = tAdd ∧ (P.addF P).ops = tDbl ∧ P.negF.ops = tNeg ∧ (P.eqF Q).ops = tEq ∧ P.e.identityF.ops = tId ∧
      (∀ N, Q.neg = R.ok N → (P.subF Q).ops = tNeg ++ tAdd) ∧ (2 ≤ p → P.normalizeF.ops = [.pow (p - 2), .mul, .mul, .mul]) ∧
      ∀ (prof : Profile) (k : Scalar) (S : Edwards.Point), 0 ≤ k.k → k.k.toNat.size < 2 ^ 64 → P.mul prof k = R.ok S →
        (P.mulF prof k).ops = tId ++ (binary k.k.toNat).flatMap fun b => tDbl ++ if b then tAdd else []) ∧
    tAdd.count .mul = 19 ∧ tDbl.count .mul = 19 ∧ tNeg.count .mul = 8 ∧ tEq.count .mul = 6 ∧ tId.count .mul = 8 ∧
    tAdd.length = 30 ∧ tDbl.length = 30 ∧ tNeg.length = 14 ∧ tEq.length = 6 ∧ tId.length = 16 ∧
    (∀ e, .pow e ∉ tAdd ∧ .pow e ∉ tDbl ∧ .pow e ∉ tNeg ∧ .pow e ∉ tEq ∧ .pow e ∉ tId) := by
  refine ⟨eAddC ++ eCheck, eAddC ++ eCheck, [.neg, .neg] ++ eCheck, List.replicate 6 .mul, List.replicate 4 .elt ++ eCheck,
    fun p hp P Q hP hQ he => ⟨e_add (f := Fp.new p) hp hP.curve hP.coords hQ.coords he, e_add (f := Fp.new p) hp hP.curve hP.coords hP.coords rfl,
      e_neg (f := Fp.new p) hp hP.curve hP.coords, e_eq (f := Fp.new p) hp hP.coords hQ.coords, e_identity (f := Fp.new p) hp hP.curve, fun N hN => ?_,
      fun h2 => e_normalize (f := Fp.new p) h2 hP.coords, fun prof k S h0 h1 hS => ?_⟩,
    by decide, by decide, by decide, by decide, by decide, by decide, by decide, by decide, by decide, by decide, fun e => ?_⟩
  · have hN' : Q.negF.out = R.ok N := (out_e_neg Q).trans hN
    obtain ⟨h1, h2⟩ := e_neg_in (f := Fp.new p) hp hQ.curve hQ.coords hN'
    rw [Edwards.Point.subF, bind_ok hN', e_neg (f := Fp.new p) hp hQ.curve hQ.coords, e_add (f := Fp.new p) hp hP.curve hP.coords h2 (he.trans h1.symm)]
  · obtain ⟨bs, hbs, h⟩ := e_mul (f := Fp.new p) hp hP.curve hP.coords prof k S hS
    rw [h, iterLR_binary h0 h1 hbs]
    rfl
  · refine ⟨?_, ?_, ?_, ?_, ?_⟩ <;> simp [eAddC, eCheck]

/-- C108, Edwards: hence the field operations called by a multiplication do not depend on the point, nor on the curve: only on the value of the
scalar. -/
theorem C108_edwards_mul (prof : Profile) (p q : ℕ) (hp : 0 < p) (hq : 0 < q) (P Q : Edwards.Point) (hP : EOver p P) (hQ : EOver q Q)
    (k l : Scalar) (h0 : 0 ≤ k.k) (h1 : k.k.toNat.size < 2 ^ 64) (hkl : k.k = l.k) (S S' : Edwards.Point)
    (hS : P.mul prof k = R.ok S) (hS' : Q.mul prof l = R.ok S') : (P.mulF prof k).ops = (Q.mulF prof l).ops := by
  obtain ⟨tA, tD, tN, tE, tI, h, -⟩ := C108_edwards
  obtain ⟨-, -, -, -, -, -, -, hm⟩ := h p hp P P hP hP rfl
  obtain ⟨-, -, -, -, -, -, -, hm'⟩ := h q hq Q Q hQ hQ rfl
  rw [hm prof k S h0 h1 hS, hm' prof l S' (hkl ▸ h0) (hkl ▸ h1) hS', hkl]

/-- C108, Edwards: the number of field products in a multiplication is 8 plus 19 for each binary digit and 19 for each digit one of the scalar. -/
theorem C108_edwards_cost (prof : Profile) (p : ℕ) (hp : 0 < p) (P : Edwards.Point) (hP : EOver p P) (k : Scalar) (h0 : 0 ≤ k.k)
    (h1 : k.k.toNat.size < 2 ^ 64) (S : Edwards.Point) (hS : P.mul prof k = R.ok S) :
    (P.mulF prof k).ops.count .mul = 8 + 19 * k.k.toNat.size + 19 * k.k.toNat.bits.count true := by
  obtain ⟨tA, tD, tN, tE, tI, h, hA, hD, -, -, hI, -⟩ := C108_edwards
  obtain ⟨-, -, -, -, -, -, -, hm⟩ := h p hp P P hP hP rfl
  rw [hm prof k S h0 h1 hS, List.count_append, hI, count_flatMap_ladder hA hD, binary, List.count_reverse, List.length_reverse, Nat.size_eq_bits_len]
  ring

end Redox.Props
