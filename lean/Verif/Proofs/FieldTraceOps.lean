import Mathlib.Data.List.Count
import Verif.Proofs.FieldTraceLink

/-!
# The recorded field operations of the group operations, and their erasure
-/

namespace Redox.FT

/-- One operation after the other. -/
macro "steps" f:ident : tactic => `(tactic| (repeat (apply Does.bind (Q := In $f) (by flat); intro _ _)))

theorem out_fadd (x y : T FpElt) : (x +ₜ y).out = x.out +! y.out := by simp only [T.fadd, out_bind]; rfl
theorem out_fsub (x y : T FpElt) : (x -ₜ y).out = x.out -! y.out := by simp only [T.fsub, out_bind]; rfl
theorem out_fmul (x y : T FpElt) : (x *ₜ y).out = x.out *! y.out := by simp only [T.fmul, out_bind]; rfl
theorem out_inv (a : FpElt) : a.invF.out = FpElt.u32Div 1 a := rfl
theorem out_div (a b : FpElt) : (a.divF b).out = a.div b := by simp only [FpElt.divF, out_bind]; rfl
theorem out_fdiv (x y : T FpElt) : (x /ₜ y).out = x.out /! y.out := by simp only [T.fdiv, out_bind, out_div]; rfl
theorem out_fneg (x : T FpElt) : (-ₜ x).out = -! x.out := by simp only [T.fneg, out_bind]; rfl
theorem out_fsqr (x : T FpElt) : (x ^²ₜ).out = x.out ^² := by simp only [T.fsqr, out_bind]; rfl
theorem out_finv (x : T FpElt) : (T.finv x).out = R.finv x.out := by simp only [T.finv, out_bind, out_inv]; rfl
theorem out_sqr (a : FpElt) : a.sqrF.out = a.powU32 2 := rfl
theorem out_pow (a : FpElt) (e : ℤ) : (a.powIntF e).out = a.powInt e := rfl
theorem out_neg (a : FpElt) : a.negF.out = a.neg := rfl
theorem out_elt (f : Fp) (n : ℤ) : (f.eltF n).out = f.elt n := rfl
theorem out_zero (f : Fp) : f.zeroF.out = f.zero := rfl
theorem out_one (f : Fp) : f.oneF.out = f.one := rfl
theorem out_fromPrim (f : Fp) (n : ℤ) : (f.fromPrimF n).out = f.fromPrim n := rfl
theorem out_isSquare (a : FpElt) : a.isSquareF.out = a.isSquare := by simp only [FpElt.isSquareF, out_bind]; rfl

theorem out_if {α : Type} (c : Prop) [Decidable c] (x y : T α) : (if c then x else y).out = if c then x.out else y.out := by split <;> rfl

theorem out_doIfEq {α : Type} (c : Bool) (x : T α) (w : Panic) : (T.doIfEq c x w).out = doIfEq c x.out w := by cases c <;> rfl

/-- Forgetting the record of each operation. -/
macro "erase" : tactic => `(tactic| simp only [out_bind, out_pure, out_ok, out_fadd, out_fsub, out_fmul, out_fdiv, out_fneg, out_fsqr, out_finv, out_inv, out_sqr,
  out_pow, out_neg, out_elt, out_zero, out_one, out_fromPrim, out_isSquare, out_if, out_doIfEq])

theorem out_precmp (f : Fp) : f.calcSqrtPrecmpF.out = f.calcSqrtPrecmp := by
  simp only [Fp.calcSqrtPrecmpF]; erase; rfl

theorem out_sqrt (a : FpElt) : a.sqrtF.out = a.sqrt := by
  simp only [FpElt.sqrtF, out_bind, out_precmp, FpElt.sqrt]
  congr 1; funext pre
  cases pre <;> simp only [FpElt.sqrtWithF, FpElt.sqrtWith] <;> erase <;> rfl

/-! ## Weierstrass -/

/-- The elements stored in the curve belong to the field `f`. -/
structure WIn (f : Fp) (e : Weierstrass.Curve) : Prop where
  fld : e.f = f
  a : In f e.a
  b : In f e.b

/-- The coordinates belong to the field `f`. -/
structure WPIn (f : Fp) (c : Weierstrass.ProyCoordinates) : Prop where
  x : In f c.x
  y : In f c.y
  z : In f c.z

/-- The operations of `is_on_curve`. -/
def wCheck : List FpOp :=
  [.mul, .mul, .mul, .mul, .add, .mul, .mul, .sub, .mul, .add]

/-- The operations of `core_add` before the curve check. -/
def wAddC : List FpOp :=
  [.add, .add, .mul, .mul, .mul, .add, .add, .mul, .add, .sub, .add, .add, .mul, .add, .sub, .add, .add, .mul, .add, .sub, .mul, .mul, .add,
   .sub, .add, .mul, .add, .add, .mul, .mul, .add, .sub, .mul, .add, .mul, .add, .mul, .mul, .sub, .mul, .mul, .add]

/-- The operations of `core_doubling` before the curve check. -/
def wDblC : List FpOp :=
  [.add, .add, .mul, .mul, .mul, .mul, .add, .mul, .add, .mul, .mul, .add, .sub, .add, .mul, .mul, .mul, .mul, .sub, .mul, .add, .add, .add,
   .add, .mul, .add, .mul, .add, .mul, .sub, .mul, .add, .add]

theorem w_onCurve {f : Fp} (hp : 0 < f.p) {e : Weierstrass.Curve} {P : Weierstrass.Point} (he : WIn f e) (hc : WPIn f P.c) :
    Does (e.isOnCurveF P) wCheck (fun _ => True) := by
  obtain ⟨_, ha, hb⟩ := he
  obtain ⟨hx, hy, hz⟩ := hc
  apply Does.cast
  · simp only [Weierstrass.Curve.isOnCurveF]
    steps f
    exact Does.ret trivial
  · rfl

theorem w_newProy {f : Fp} (hp : 0 < f.p) {e : Weierstrass.Curve} {c : Weierstrass.ProyCoordinates} (he : WIn f e) (hc : WPIn f c) :
    (e.newProyPointF c).ops = wCheck := by
  have := ops_bind (t := []) (w_onCurve hp (P := ⟨e, c⟩) he hc) (g := fun b => T.doIfEq b (T.ok (⟨e, c⟩ : Weierstrass.Point)) .notValidPoint)
    (fun b _ => by cases b <;> rfl)
  rwa [List.append_nil] at this

theorem w_newProy_in {e : Weierstrass.Curve} {c : Weierstrass.ProyCoordinates} {P : Weierstrass.Point} (h : (e.newProyPointF c).out = R.ok P) :
    P.e = e ∧ P.c = c := by
  simp only [Weierstrass.Curve.newProyPointF, out_bind, out_doIfEq, out_ok, R.bind_eq_ok] at h
  obtain ⟨b, _, hb⟩ := h
  cases b
  · cases hb
  · cases hb; exact ⟨rfl, rfl⟩

theorem w_addC {f : Fp} (hp : 0 < f.p) {P Q : Weierstrass.Point} (he : WIn f P.e) (hP : WPIn f P.c) (hQ : WPIn f Q.c) :
    Does (P.coreAddCoordsF Q) wAddC (WPIn f) := by
  obtain ⟨_, ha, hb⟩ := he
  obtain ⟨hx, hy, hz⟩ := hP
  obtain ⟨kx, ky, kz⟩ := hQ
  apply Does.cast
  · simp only [Weierstrass.Point.coreAddCoordsF]
    steps f
    exact Does.ret ⟨by assumption, by assumption, by assumption⟩
  · rfl

theorem w_add {f : Fp} (hp : 0 < f.p) {P Q : Weierstrass.Point} (he : WIn f P.e) (hP : WPIn f P.c) (hQ : WPIn f Q.c) (h : P.e = Q.e) :
    (P.addF Q).ops = wAddC ++ wCheck := by
  rw [Weierstrass.Point.addF, h, beq_self_eq_true]
  exact ops_bind (w_addC hp he hP hQ) fun c hc => w_newProy hp he hc

theorem w_add_in {f : Fp} (hp : 0 < f.p) {P Q S : Weierstrass.Point} (he : WIn f P.e) (hP : WPIn f P.c) (hQ : WPIn f Q.c)
    (h : (P.addF Q).out = R.ok S) : S.e = P.e ∧ WPIn f S.c := by
  rw [Weierstrass.Point.addF, out_doIfEq] at h
  cases hb : P.e == Q.e
  · rw [hb] at h; cases h
  · rw [hb, doIfEq_true, Weierstrass.Point.coreAddF, out_bind, R.bind_eq_ok] at h
    obtain ⟨c, hc, hS⟩ := h
    obtain ⟨d, hd, _, hi⟩ := w_addC hp he hP hQ
    obtain ⟨h1, h2⟩ := w_newProy_in hS
    rw [hd] at hc
    cases hc
    exact ⟨h1, h2 ▸ hi⟩

theorem w_neg {f : Fp} (hp : 0 < f.p) {P : Weierstrass.Point} (he : WIn f P.e) (hP : WPIn f P.c) :
    P.negF.ops = [.neg] ++ wCheck := by
  obtain ⟨hx, hy, hz⟩ := hP
  exact ops_bind (neg_in hp hy) fun a ha => w_newProy hp he ⟨hx, ha, hz⟩

theorem w_neg_in {f : Fp} (hp : 0 < f.p) {P S : Weierstrass.Point} (he : WIn f P.e) (hP : WPIn f P.c) (h : P.negF.out = R.ok S) :
    S.e = P.e ∧ WPIn f S.c := by
  obtain ⟨hx, hy, hz⟩ := hP
  obtain ⟨a, ha, _, ia⟩ := neg_in hp hy
  rw [Weierstrass.Point.negF, bind_ok ha] at h
  obtain ⟨h1, h2⟩ := w_newProy_in h
  exact ⟨h1, h2 ▸ ⟨hx, ia, hz⟩⟩

theorem w_eq {f : Fp} (hp : 0 < f.p) {P Q : Weierstrass.Point} (hP : WPIn f P.c) (hQ : WPIn f Q.c) :
    (P.eqF Q).ops = [.mul, .mul, .mul, .mul] := by
  obtain ⟨hx, hy, hz⟩ := hP
  obtain ⟨kx, ky, kz⟩ := hQ
  have : Does (P.eqF Q) [.mul, .mul, .mul, .mul] (fun _ => True) := by
    apply Does.cast
    · simp only [Weierstrass.Point.eqF]
      steps f
      exact Does.ret trivial
    · rfl
  obtain ⟨_, _, h, _⟩ := this
  exact h

theorem w_normalize {f : Fp} (hp : 2 ≤ f.p) {P : Weierstrass.Point} (hP : WPIn f P.c) :
    P.normalizeF.ops = [.pow (f.p - 2), .mul, .mul] := by
  obtain ⟨hx, hy, hz⟩ := hP
  have h0 : 0 < f.p := by omega
  have : Does P.normalizeF [.pow (f.p - 2), .mul, .mul] (fun _ => True) := by
    apply Does.cast
    · simp only [Weierstrass.Point.normalizeF]
      apply Does.bind (inv_in hp hz); intro _ _
      steps f
      exact Does.ret trivial
    · rfl
  obtain ⟨_, _, h, _⟩ := this
  exact h

theorem w_identity {f : Fp} (hp : 0 < f.p) {e : Weierstrass.Curve} (he : WIn f e) :
    e.identityF.ops = [.elt, .elt, .elt] ++ wCheck := by
  have h0 : ∀ n, Does (e.f.eltF n) [.elt] (In f) := fun n => he.fld ▸ elt_in (he.fld ▸ hp) n
  show _ = [.elt] ++ ([.elt] ++ ([.elt] ++ wCheck))
  exact ops_bind (h0 0) fun a ha => ops_bind (s := [.elt]) (h0 1) fun b hb => ops_bind (s := [.elt]) (h0 0) fun d hd => w_newProy hp he ⟨ha, hb, hd⟩

theorem w_identity_in {f : Fp} (hp : 0 < f.p) {e : Weierstrass.Curve} (he : WIn f e) {P : Weierstrass.Point} (h : e.identityF.out = R.ok P) :
    P.e = e ∧ WPIn f P.c := by
  have h0 : ∀ n a, (e.f.elt n) = R.ok a → In f a := fun n a ha => by
    obtain ⟨b, hb, _, hi⟩ := elt_in (he.fld ▸ hp : 0 < e.f.p) n
    rw [show e.f.elt n = R.ok b from hb] at ha
    cases ha
    exact hi.trans he.fld
  simp only [Weierstrass.Curve.identityF, out_bind, out_zero, out_one, R.bind_eq_ok] at h
  obtain ⟨a, ha, b, hb, c, hc, hP⟩ := h
  obtain ⟨h1, h2⟩ := w_newProy_in hP
  exact ⟨h1, h2 ▸ ⟨h0 _ _ ha, h0 _ _ hb, h0 _ _ hc⟩⟩

/-! Forgetting the record. -/

theorem out_w_newProy (e : Weierstrass.Curve) (c : Weierstrass.ProyCoordinates) : (e.newProyPointF c).out = e.newProyPoint c := by
  simp only [Weierstrass.Curve.newProyPointF, Weierstrass.Curve.isOnCurveF]; erase; rfl

theorem out_w_newPoint (e : Weierstrass.Curve) (x y : FpElt) : (e.newPointF x y).out = e.newPoint x y := by
  simp only [Weierstrass.Curve.newPointF, Weierstrass.Curve.isOnCurveF]; erase; rfl

theorem out_w_identity (e : Weierstrass.Curve) : e.identityF.out = e.identity := by
  simp only [Weierstrass.Curve.identityF]; erase; simp only [out_w_newProy]; rfl

theorem out_w_add (P Q : Weierstrass.Point) : (P.addF Q).out = P.add Q := by
  simp only [Weierstrass.Point.addF, Weierstrass.Point.coreAddF, Weierstrass.Point.coreAddCoordsF]; erase; simp only [out_w_newProy]; rfl

theorem out_w_neg (P : Weierstrass.Point) : P.negF.out = P.neg := by
  simp only [Weierstrass.Point.negF]; erase; simp only [out_w_newProy]; rfl

theorem out_w_sub (P Q : Weierstrass.Point) : (P.subF Q).out = P.sub Q := by
  simp only [Weierstrass.Point.subF, out_bind, out_w_add, out_w_neg]; rfl

theorem out_w_eq (P Q : Weierstrass.Point) : (P.eqF Q).out = P.eq Q := by
  simp only [Weierstrass.Point.eqF]; erase; rfl

theorem out_w_normalize (P : Weierstrass.Point) : P.normalizeF.out = P.normalize := by
  simp only [Weierstrass.Point.normalizeF]; erase; rfl

theorem w_dblC {f : Fp} (hp : 0 < f.p) {P : Weierstrass.Point} (he : WIn f P.e) (hP : WPIn f P.c) :
    Does P.coreDoublingCoordsF wDblC (WPIn f) := by
  obtain ⟨_, ha, hb⟩ := he
  obtain ⟨hx, hy, hz⟩ := hP
  apply Does.cast
  · simp only [Weierstrass.Point.coreDoublingCoordsF]
    steps f
    exact Does.ret ⟨by assumption, by assumption, by assumption⟩
  · rfl

theorem w_dbl {f : Fp} (hp : 0 < f.p) {P : Weierstrass.Point} (he : WIn f P.e) (hP : WPIn f P.c) :
    P.coreDoublingF.ops = wDblC ++ wCheck := ops_bind (w_dblC hp he hP) fun c hc => w_newProy hp he hc

theorem w_dbl_in {f : Fp} (hp : 0 < f.p) {P S : Weierstrass.Point} (he : WIn f P.e) (hP : WPIn f P.c)
    (h : P.coreDoublingF.out = R.ok S) : S.e = P.e ∧ WPIn f S.c := by
  rw [Weierstrass.Point.coreDoublingF, out_bind, R.bind_eq_ok] at h
  obtain ⟨c, hc, hS⟩ := h
  obtain ⟨d, hd, _, hi⟩ := w_dblC hp he hP
  obtain ⟨h1, h2⟩ := w_newProy_in hS
  rw [hd] at hc
  cases hc
  exact ⟨h1, h2 ▸ hi⟩

theorem out_w_dbl (P : Weierstrass.Point) : P.coreDoublingF.out = P.coreDoubling := by
  simp only [Weierstrass.Point.coreDoublingF, Weierstrass.Point.coreDoublingCoordsF]; erase; simp only [out_w_newProy]; rfl

theorem w_loop {f : Fp} (hp : 0 < f.p) {P : Weierstrass.Point} (he : WIn f P.e) (hP : WPIn f P.c) :
    ∀ (bs : List Bool) (q S : Weierstrass.Point), q.e = P.e → WPIn f q.c → (P.mulLoopF bs q).out = R.ok S →
      (P.mulLoopF bs q).ops = bs.flatMap fun b => (wDblC ++ wCheck) ++ if b then wAddC ++ wCheck else []
  | [], q, S, _, _, _ => rfl
  | b :: bs, q, S, hq, hi, h => by
    simp only [Weierstrass.Point.mulLoopF] at h ⊢
    rw [out_bind, R.bind_eq_ok] at h
    obtain ⟨d, hd, h⟩ := h
    obtain ⟨de, di⟩ := w_dbl_in hp (hq ▸ he) hi hd
    have dops := w_dbl hp (hq ▸ he) hi
    rw [bind_ok hd, dops, List.flatMap_cons]
    cases b
    · simp only [Bool.false_eq_true, if_false, List.append_nil] at h ⊢
      rw [show (T.ok d >>= fun q => P.mulLoopF bs q) = ⟨(P.mulLoopF bs d).out, [] ++ (P.mulLoopF bs d).ops⟩ from bind_ok rfl] at h ⊢
      rw [List.nil_append, w_loop hp he hP bs d S (de.trans hq) di h]
    · simp only [if_true] at h ⊢
      rw [out_bind, R.bind_eq_ok] at h
      obtain ⟨s, hs, h⟩ := h
      obtain ⟨se, si⟩ := w_add_in hp (by rw [de, hq]; exact he) di hP hs
      have aops := w_add hp (by rw [de, hq]; exact he) di hP (de.trans hq)
      rw [bind_ok hs, aops, w_loop hp he hP bs s S (by rw [se, de, hq]) si h]
      simp only [List.append_assoc]

theorem out_w_loop (P : Weierstrass.Point) : ∀ (bs : List Bool) (q : Weierstrass.Point), (P.mulLoopF bs q).out = P.mulLoop bs q
  | [], q => rfl
  | b :: bs, q => by
    simp only [Weierstrass.Point.mulLoopF, Weierstrass.Point.mulLoop, out_bind, out_w_dbl, out_w_add, out_if, out_ok, out_w_loop P bs]

theorem out_w_mul (prof : Profile) (P : Weierstrass.Point) (k : Scalar) : (P.mulF prof k).out = P.mul prof k := by
  simp only [Weierstrass.Point.mulF, Weierstrass.Point.coreMulF, out_doIfEq, out_bind, out_w_identity, out_w_loop]
  rfl

theorem w_mul {f : Fp} (hp : 0 < f.p) {P : Weierstrass.Point} (he : WIn f P.e) (hP : WPIn f P.c) (prof : Profile) (k : Scalar)
    (S : Weierstrass.Point) (h : P.mul prof k = R.ok S) : ∃ bs, k.iterLR prof = R.ok bs ∧
      (P.mulF prof k).ops = ([.elt, .elt, .elt] ++ wCheck) ++
        bs.flatMap fun b => (wDblC ++ wCheck) ++ if b then wAddC ++ wCheck else [] := by
  rw [← out_w_mul, Weierstrass.Point.mulF, out_doIfEq] at h
  rw [Weierstrass.Point.mulF]
  cases hb : (P.e.r : Int) == k.r
  · rw [hb] at h; cases h
  · rw [hb, doIfEq_true, Weierstrass.Point.coreMulF, out_bind, R.bind_eq_ok] at h
    obtain ⟨i, hi, h⟩ := h
    rw [out_bind, R.bind_eq_ok] at h
    obtain ⟨bs, hbs, h⟩ := h
    obtain ⟨ie, ii⟩ := w_identity_in hp he hi
    refine ⟨bs, hbs, ?_⟩
    show (Weierstrass.Point.coreMulF prof P k).ops = _
    rw [Weierstrass.Point.coreMulF, bind_ok hi, w_identity hp he]
    have : ((⟨k.iterLR prof, []⟩ : T (List Bool)) >>= fun bits => P.mulLoopF bits i) = ⟨(P.mulLoopF bs i).out, [] ++ (P.mulLoopF bs i).ops⟩ :=
      bind_ok hbs
    rw [this, w_loop hp he hP bs i S ie ii h, List.nil_append]

/-! ## Montgomery -/

/-- The elements stored in the curve belong to the field `f`. -/
structure MIn (f : Fp) (e : Montgomery.Curve) : Prop where
  fld : e.f = f
  a : In f e.a
  b : In f e.b
  s : In f e.s

/-- The coordinates belong to the field `f`. -/
structure MPIn (f : Fp) (c : Montgomery.ProyCoordinates) : Prop where
  x : In f c.x
  y : In f c.y
  z : In f c.z

/-- The operations of `is_on_curve`. -/
def mCheck : List FpOp :=
  [.mul, .mul, .mul, .mul, .mul, .mul, .add, .mul, .add, .mul, .sub]

/-- The operations of `core_add` before the curve check. -/
def mAddC : List FpOp :=
  [.mul, .mul, .mul, .mul, .mul, .mul, .mul, .mul, .mul, .add, .mul, .add, .add, .sub, .mul, .add, .add, .add, .add, .sub, .mul, .add, .sub,
   .sub, .mul, .sub, .sub, .sub, .mul, .add, .add, .mul, .mul, .sub, .mul, .mul, .sub, .mul, .mul, .sub]

theorem m_onCurve {f : Fp} (hp : 0 < f.p) {e : Montgomery.Curve} {P : Montgomery.Point} (he : MIn f e) (hc : MPIn f P.c) :
    Does (e.isOnCurveF P) mCheck (fun _ => True) := by
  obtain ⟨_, ha, hb, hs⟩ := he
  obtain ⟨hx, hy, hz⟩ := hc
  apply Does.cast
  · simp only [Montgomery.Curve.isOnCurveF]
    steps f
    exact Does.ret trivial
  · rfl

theorem m_newProy {f : Fp} (hp : 0 < f.p) {e : Montgomery.Curve} {c : Montgomery.ProyCoordinates} (he : MIn f e) (hc : MPIn f c) :
    (e.newProyPointF c).ops = mCheck := by
  have := ops_bind (t := []) (m_onCurve hp (P := ⟨e, c⟩) he hc) (g := fun b => T.doIfEq b (T.ok (⟨e, c⟩ : Montgomery.Point)) .notValidPoint)
    (fun b _ => by cases b <;> rfl)
  rwa [List.append_nil] at this

theorem m_newProy_in {e : Montgomery.Curve} {c : Montgomery.ProyCoordinates} {P : Montgomery.Point} (h : (e.newProyPointF c).out = R.ok P) :
    P.e = e ∧ P.c = c := by
  simp only [Montgomery.Curve.newProyPointF, out_bind, out_doIfEq, out_ok, R.bind_eq_ok] at h
  obtain ⟨b, _, hb⟩ := h
  cases b
  · cases hb
  · cases hb; exact ⟨rfl, rfl⟩

theorem m_addC {f : Fp} (hp : 0 < f.p) {P Q : Montgomery.Point} (he : MIn f P.e) (hP : MPIn f P.c) (hQ : MPIn f Q.c) :
    Does (P.coreAddCoordsF Q) mAddC (MPIn f) := by
  obtain ⟨_, ha, hb, hs⟩ := he
  obtain ⟨hx, hy, hz⟩ := hP
  obtain ⟨kx, ky, kz⟩ := hQ
  apply Does.cast
  · simp only [Montgomery.Point.coreAddCoordsF]
    steps f
    exact Does.ret ⟨by assumption, by assumption, by assumption⟩
  · rfl

theorem m_add {f : Fp} (hp : 0 < f.p) {P Q : Montgomery.Point} (he : MIn f P.e) (hP : MPIn f P.c) (hQ : MPIn f Q.c) (h : P.e = Q.e) :
    (P.addF Q).ops = mAddC ++ mCheck := by
  rw [Montgomery.Point.addF, h, beq_self_eq_true]
  exact ops_bind (m_addC hp he hP hQ) fun c hc => m_newProy hp he hc

theorem m_add_in {f : Fp} (hp : 0 < f.p) {P Q S : Montgomery.Point} (he : MIn f P.e) (hP : MPIn f P.c) (hQ : MPIn f Q.c)
    (h : (P.addF Q).out = R.ok S) : S.e = P.e ∧ MPIn f S.c := by
  rw [Montgomery.Point.addF, out_doIfEq] at h
  cases hb : P.e == Q.e
  · rw [hb] at h; cases h
  · rw [hb, doIfEq_true, Montgomery.Point.coreAddF, out_bind, R.bind_eq_ok] at h
    obtain ⟨c, hc, hS⟩ := h
    obtain ⟨d, hd, _, hi⟩ := m_addC hp he hP hQ
    obtain ⟨h1, h2⟩ := m_newProy_in hS
    rw [hd] at hc
    cases hc
    exact ⟨h1, h2 ▸ hi⟩

theorem m_neg {f : Fp} (hp : 0 < f.p) {P : Montgomery.Point} (he : MIn f P.e) (hP : MPIn f P.c) :
    P.negF.ops = [.neg] ++ mCheck := by
  obtain ⟨hx, hy, hz⟩ := hP
  exact ops_bind (neg_in hp hy) fun a ha => m_newProy hp he ⟨hx, ha, hz⟩

theorem m_neg_in {f : Fp} (hp : 0 < f.p) {P S : Montgomery.Point} (he : MIn f P.e) (hP : MPIn f P.c) (h : P.negF.out = R.ok S) :
    S.e = P.e ∧ MPIn f S.c := by
  obtain ⟨hx, hy, hz⟩ := hP
  obtain ⟨a, ha, _, ia⟩ := neg_in hp hy
  rw [Montgomery.Point.negF, bind_ok ha] at h
  obtain ⟨h1, h2⟩ := m_newProy_in h
  exact ⟨h1, h2 ▸ ⟨hx, ia, hz⟩⟩

theorem m_eq {f : Fp} (hp : 0 < f.p) {P Q : Montgomery.Point} (hP : MPIn f P.c) (hQ : MPIn f Q.c) :
    (P.eqF Q).ops = [.mul, .mul, .mul, .mul] := by
  obtain ⟨hx, hy, hz⟩ := hP
  obtain ⟨kx, ky, kz⟩ := hQ
  have : Does (P.eqF Q) [.mul, .mul, .mul, .mul] (fun _ => True) := by
    apply Does.cast
    · simp only [Montgomery.Point.eqF]
      steps f
      exact Does.ret trivial
    · rfl
  obtain ⟨_, _, h, _⟩ := this
  exact h

theorem m_normalize {f : Fp} (hp : 2 ≤ f.p) {P : Montgomery.Point} (hP : MPIn f P.c) :
    P.normalizeF.ops = [.pow (f.p - 2), .mul, .mul] := by
  obtain ⟨hx, hy, hz⟩ := hP
  have h0 : 0 < f.p := by omega
  have : Does P.normalizeF [.pow (f.p - 2), .mul, .mul] (fun _ => True) := by
    apply Does.cast
    · simp only [Montgomery.Point.normalizeF]
      apply Does.bind (inv_in hp hz); intro _ _
      steps f
      exact Does.ret trivial
    · rfl
  obtain ⟨_, _, h, _⟩ := this
  exact h

theorem m_identity {f : Fp} (hp : 0 < f.p) {e : Montgomery.Curve} (he : MIn f e) :
    e.identityF.ops = [.elt, .elt, .elt] ++ mCheck := by
  have h0 : ∀ n, Does (e.f.eltF n) [.elt] (In f) := fun n => he.fld ▸ elt_in (he.fld ▸ hp) n
  show _ = [.elt] ++ ([.elt] ++ ([.elt] ++ mCheck))
  exact ops_bind (h0 0) fun a ha => ops_bind (s := [.elt]) (h0 1) fun b hb => ops_bind (s := [.elt]) (h0 0) fun d hd => m_newProy hp he ⟨ha, hb, hd⟩

theorem m_identity_in {f : Fp} (hp : 0 < f.p) {e : Montgomery.Curve} (he : MIn f e) {P : Montgomery.Point} (h : e.identityF.out = R.ok P) :
    P.e = e ∧ MPIn f P.c := by
  have h0 : ∀ n a, (e.f.elt n) = R.ok a → In f a := fun n a ha => by
    obtain ⟨b, hb, _, hi⟩ := elt_in (he.fld ▸ hp : 0 < e.f.p) n
    rw [show e.f.elt n = R.ok b from hb] at ha
    cases ha
    exact hi.trans he.fld
  simp only [Montgomery.Curve.identityF, out_bind, out_zero, out_one, R.bind_eq_ok] at h
  obtain ⟨a, ha, b, hb, c, hc, hP⟩ := h
  obtain ⟨h1, h2⟩ := m_newProy_in hP
  exact ⟨h1, h2 ▸ ⟨h0 _ _ ha, h0 _ _ hb, h0 _ _ hc⟩⟩

/-! Forgetting the record. -/

theorem out_m_newProy (e : Montgomery.Curve) (c : Montgomery.ProyCoordinates) : (e.newProyPointF c).out = e.newProyPoint c := by
  simp only [Montgomery.Curve.newProyPointF, Montgomery.Curve.isOnCurveF]; erase; rfl

theorem out_m_newPoint (e : Montgomery.Curve) (x y : FpElt) : (e.newPointF x y).out = e.newPoint x y := by
  simp only [Montgomery.Curve.newPointF, Montgomery.Curve.isOnCurveF]; erase; rfl

theorem out_m_identity (e : Montgomery.Curve) : e.identityF.out = e.identity := by
  simp only [Montgomery.Curve.identityF]; erase; simp only [out_m_newProy]; rfl

theorem out_m_add (P Q : Montgomery.Point) : (P.addF Q).out = P.add Q := by
  simp only [Montgomery.Point.addF, Montgomery.Point.coreAddF, Montgomery.Point.coreAddCoordsF]; erase; simp only [out_m_newProy]; rfl

theorem out_m_neg (P : Montgomery.Point) : P.negF.out = P.neg := by
  simp only [Montgomery.Point.negF]; erase; simp only [out_m_newProy]; rfl

theorem out_m_sub (P Q : Montgomery.Point) : (P.subF Q).out = P.sub Q := by
  simp only [Montgomery.Point.subF, out_bind, out_m_add, out_m_neg]; rfl

theorem out_m_eq (P Q : Montgomery.Point) : (P.eqF Q).out = P.eq Q := by
  simp only [Montgomery.Point.eqF]; erase; rfl

theorem out_m_normalize (P : Montgomery.Point) : P.normalizeF.out = P.normalize := by
  simp only [Montgomery.Point.normalizeF]; erase; rfl

theorem m_loop {f : Fp} (hp : 0 < f.p) {P : Montgomery.Point} (he : MIn f P.e) (hP : MPIn f P.c) :
    ∀ (bs : List Bool) (q S : Montgomery.Point), q.e = P.e → MPIn f q.c → (P.mulLoopF bs q).out = R.ok S →
      (P.mulLoopF bs q).ops = bs.flatMap fun b => (mAddC ++ mCheck) ++ if b then mAddC ++ mCheck else []
  | [], q, S, _, _, _ => rfl
  | b :: bs, q, S, hq, hi, h => by
    simp only [Montgomery.Point.mulLoopF] at h ⊢
    rw [out_bind, R.bind_eq_ok] at h
    obtain ⟨d, hd, h⟩ := h
    obtain ⟨de, di⟩ := m_add_in hp (hq ▸ he) hi hi hd
    have dops := m_add hp (hq ▸ he) hi hi rfl
    rw [bind_ok hd, dops, List.flatMap_cons]
    cases b
    · simp only [Bool.false_eq_true, if_false, List.append_nil] at h ⊢
      rw [show (T.ok d >>= fun q => P.mulLoopF bs q) = ⟨(P.mulLoopF bs d).out, [] ++ (P.mulLoopF bs d).ops⟩ from bind_ok rfl] at h ⊢
      rw [List.nil_append, m_loop hp he hP bs d S (de.trans hq) di h]
    · simp only [if_true] at h ⊢
      rw [out_bind, R.bind_eq_ok] at h
      obtain ⟨s, hs, h⟩ := h
      obtain ⟨se, si⟩ := m_add_in hp (by rw [de, hq]; exact he) di hP hs
      have aops := m_add hp (by rw [de, hq]; exact he) di hP (de.trans hq)
      rw [bind_ok hs, aops, m_loop hp he hP bs s S (by rw [se, de, hq]) si h]
      simp only [List.append_assoc]

theorem out_m_loop (P : Montgomery.Point) : ∀ (bs : List Bool) (q : Montgomery.Point), (P.mulLoopF bs q).out = P.mulLoop bs q
  | [], q => rfl
  | b :: bs, q => by
    simp only [Montgomery.Point.mulLoopF, Montgomery.Point.mulLoop, out_bind, out_m_add, out_if, out_ok, out_m_loop P bs]

theorem out_m_mul (prof : Profile) (P : Montgomery.Point) (k : Scalar) : (P.mulF prof k).out = P.mul prof k := by
  simp only [Montgomery.Point.mulF, Montgomery.Point.coreMulF, out_doIfEq, out_bind, out_m_identity, out_m_loop]
  rfl

theorem m_mul {f : Fp} (hp : 0 < f.p) {P : Montgomery.Point} (he : MIn f P.e) (hP : MPIn f P.c) (prof : Profile) (k : Scalar)
    (S : Montgomery.Point) (h : P.mul prof k = R.ok S) : ∃ bs, k.iterLR prof = R.ok bs ∧
      (P.mulF prof k).ops = ([.elt, .elt, .elt] ++ mCheck) ++
        bs.flatMap fun b => (mAddC ++ mCheck) ++ if b then mAddC ++ mCheck else [] := by
  rw [← out_m_mul, Montgomery.Point.mulF, out_doIfEq] at h
  rw [Montgomery.Point.mulF]
  cases hb : (P.e.r : Int) == k.r
  · rw [hb] at h; cases h
  · rw [hb, doIfEq_true, Montgomery.Point.coreMulF, out_bind, R.bind_eq_ok] at h
    obtain ⟨i, hi, h⟩ := h
    rw [out_bind, R.bind_eq_ok] at h
    obtain ⟨bs, hbs, h⟩ := h
    obtain ⟨ie, ii⟩ := m_identity_in hp he hi
    refine ⟨bs, hbs, ?_⟩
    show (Montgomery.Point.coreMulF prof P k).ops = _
    rw [Montgomery.Point.coreMulF, bind_ok hi, m_identity hp he]
    have : ((⟨k.iterLR prof, []⟩ : T (List Bool)) >>= fun bits => P.mulLoopF bits i) = ⟨(P.mulLoopF bs i).out, [] ++ (P.mulLoopF bs i).ops⟩ :=
      bind_ok hbs
    rw [this, m_loop hp he hP bs i S ie ii h, List.nil_append]

/-! ## Edwards -/

/-- The elements stored in the curve belong to the field `f`. -/
structure EIn (f : Fp) (e : Edwards.Curve) : Prop where
  fld : e.f = f
  a : In f e.a
  d : In f e.d

/-- The coordinates belong to the field `f`. -/
structure EPIn (f : Fp) (c : Edwards.ProyCoordinates) : Prop where
  x : In f c.x
  y : In f c.y
  t : In f c.t
  z : In f c.z

/-- The operations of `is_on_curve`. -/
def eCheck : List FpOp :=
  [.mul, .mul, .mul, .mul, .mul, .add, .mul, .add, .mul, .mul, .sub, .sub]

/-- The operations of `core_add` before the curve check. -/
def eAddC : List FpOp :=
  [.mul, .mul, .mul, .mul, .mul, .add, .add, .mul, .sub, .sub, .sub, .add, .mul, .sub, .mul, .mul, .mul, .mul]

theorem e_onCurve {f : Fp} (hp : 0 < f.p) {e : Edwards.Curve} {P : Edwards.Point} (he : EIn f e) (hc : EPIn f P.c) :
    Does (e.isOnCurveF P) eCheck (fun _ => True) := by
  obtain ⟨_, ha, hd⟩ := he
  obtain ⟨hx, hy, ht, hz⟩ := hc
  apply Does.cast
  · simp only [Edwards.Curve.isOnCurveF]
    steps f
    exact Does.ret trivial
  · rfl

theorem e_newProy {f : Fp} (hp : 0 < f.p) {e : Edwards.Curve} {c : Edwards.ProyCoordinates} (he : EIn f e) (hc : EPIn f c) :
    (e.newProyPointF c).ops = eCheck := by
  have := ops_bind (t := []) (e_onCurve hp (P := ⟨e, c⟩) he hc) (g := fun b => T.doIfEq b (T.ok (⟨e, c⟩ : Edwards.Point)) .notValidPoint)
    (fun b _ => by cases b <;> rfl)
  rwa [List.append_nil] at this

theorem e_newProy_in {e : Edwards.Curve} {c : Edwards.ProyCoordinates} {P : Edwards.Point} (h : (e.newProyPointF c).out = R.ok P) :
    P.e = e ∧ P.c = c := by
  simp only [Edwards.Curve.newProyPointF, out_bind, out_doIfEq, out_ok, R.bind_eq_ok] at h
  obtain ⟨b, _, hb⟩ := h
  cases b
  · cases hb
  · cases hb; exact ⟨rfl, rfl⟩

theorem e_addC {f : Fp} (hp : 0 < f.p) {P Q : Edwards.Point} (he : EIn f P.e) (hP : EPIn f P.c) (hQ : EPIn f Q.c) :
    Does (P.coreAddCoordsF Q) eAddC (EPIn f) := by
  obtain ⟨_, ha, hd⟩ := he
  obtain ⟨hx, hy, ht, hz⟩ := hP
  obtain ⟨kx, ky, kt, kz⟩ := hQ
  apply Does.cast
  · simp only [Edwards.Point.coreAddCoordsF]
    steps f
    exact Does.ret ⟨by assumption, by assumption, by assumption, by assumption⟩
  · rfl

theorem e_add {f : Fp} (hp : 0 < f.p) {P Q : Edwards.Point} (he : EIn f P.e) (hP : EPIn f P.c) (hQ : EPIn f Q.c) (h : P.e = Q.e) :
    (P.addF Q).ops = eAddC ++ eCheck := by
  rw [Edwards.Point.addF, h, beq_self_eq_true]
  exact ops_bind (e_addC hp he hP hQ) fun c hc => e_newProy hp he hc

theorem e_add_in {f : Fp} (hp : 0 < f.p) {P Q S : Edwards.Point} (he : EIn f P.e) (hP : EPIn f P.c) (hQ : EPIn f Q.c)
    (h : (P.addF Q).out = R.ok S) : S.e = P.e ∧ EPIn f S.c := by
  rw [Edwards.Point.addF, out_doIfEq] at h
  cases hb : P.e == Q.e
  · rw [hb] at h; cases h
  · rw [hb, doIfEq_true, Edwards.Point.coreAddF, out_bind, R.bind_eq_ok] at h
    obtain ⟨c, hc, hS⟩ := h
    obtain ⟨d, hd, _, hi⟩ := e_addC hp he hP hQ
    obtain ⟨h1, h2⟩ := e_newProy_in hS
    rw [hd] at hc
    cases hc
    exact ⟨h1, h2 ▸ hi⟩

theorem e_neg {f : Fp} (hp : 0 < f.p) {P : Edwards.Point} (he : EIn f P.e) (hP : EPIn f P.c) :
    P.negF.ops = [.neg, .neg] ++ eCheck := by
  obtain ⟨hx, hy, ht, hz⟩ := hP
  show _ = [.neg] ++ ([.neg] ++ eCheck); exact ops_bind (neg_in hp hx) fun a ha => ops_bind (neg_in hp ht) fun b hb => e_newProy hp he ⟨ha, hy, hb, hz⟩

theorem e_neg_in {f : Fp} (hp : 0 < f.p) {P S : Edwards.Point} (he : EIn f P.e) (hP : EPIn f P.c) (h : P.negF.out = R.ok S) :
    S.e = P.e ∧ EPIn f S.c := by
  obtain ⟨hx, hy, ht, hz⟩ := hP
  obtain ⟨a, ha, _, ia⟩ := neg_in hp hx; obtain ⟨b, hb, _, ib⟩ := neg_in hp ht
  rw [Edwards.Point.negF, bind_ok ha, bind_ok hb] at h
  obtain ⟨h1, h2⟩ := e_newProy_in h
  exact ⟨h1, h2 ▸ ⟨ia, hy, ib, hz⟩⟩

theorem e_eq {f : Fp} (hp : 0 < f.p) {P Q : Edwards.Point} (hP : EPIn f P.c) (hQ : EPIn f Q.c) :
    (P.eqF Q).ops = [.mul, .mul, .mul, .mul, .mul, .mul] := by
  obtain ⟨hx, hy, ht, hz⟩ := hP
  obtain ⟨kx, ky, kt, kz⟩ := hQ
  have : Does (P.eqF Q) [.mul, .mul, .mul, .mul, .mul, .mul] (fun _ => True) := by
    apply Does.cast
    · simp only [Edwards.Point.eqF]
      steps f
      exact Does.ret trivial
    · rfl
  obtain ⟨_, _, h, _⟩ := this
  exact h

theorem e_normalize {f : Fp} (hp : 2 ≤ f.p) {P : Edwards.Point} (hP : EPIn f P.c) :
    P.normalizeF.ops = [.pow (f.p - 2), .mul, .mul, .mul] := by
  obtain ⟨hx, hy, ht, hz⟩ := hP
  have h0 : 0 < f.p := by omega
  have : Does P.normalizeF [.pow (f.p - 2), .mul, .mul, .mul] (fun _ => True) := by
    apply Does.cast
    · simp only [Edwards.Point.normalizeF]
      apply Does.bind (inv_in hp hz); intro _ _
      steps f
      exact Does.ret trivial
    · rfl
  obtain ⟨_, _, h, _⟩ := this
  exact h

theorem e_identity {f : Fp} (hp : 0 < f.p) {e : Edwards.Curve} (he : EIn f e) :
    e.identityF.ops = [.elt, .elt, .elt, .elt] ++ eCheck := by
  have h0 : ∀ n, Does (e.f.eltF n) [.elt] (In f) := fun n => he.fld ▸ elt_in (he.fld ▸ hp) n
  show _ = [.elt] ++ ([.elt] ++ ([.elt] ++ ([.elt] ++ eCheck)))
  exact ops_bind (h0 0) fun a ha => ops_bind (s := [.elt]) (h0 1) fun b hb => ops_bind (s := [.elt]) (h0 0) fun c hc => ops_bind (s := [.elt]) (h0 1) fun d hd => e_newProy hp he ⟨ha, hb, hc, hd⟩

theorem e_identity_in {f : Fp} (hp : 0 < f.p) {e : Edwards.Curve} (he : EIn f e) {P : Edwards.Point} (h : e.identityF.out = R.ok P) :
    P.e = e ∧ EPIn f P.c := by
  have h0 : ∀ n a, (e.f.elt n) = R.ok a → In f a := fun n a ha => by
    obtain ⟨b, hb, _, hi⟩ := elt_in (he.fld ▸ hp : 0 < e.f.p) n
    rw [show e.f.elt n = R.ok b from hb] at ha
    cases ha
    exact hi.trans he.fld
  simp only [Edwards.Curve.identityF, out_bind, out_zero, out_one, R.bind_eq_ok] at h
  obtain ⟨a, ha, b, hb, c, hc, d, hd, hP⟩ := h
  obtain ⟨h1, h2⟩ := e_newProy_in hP
  exact ⟨h1, h2 ▸ ⟨h0 _ _ ha, h0 _ _ hb, h0 _ _ hc, h0 _ _ hd⟩⟩

/-! Forgetting the record. -/

theorem out_e_newProy (e : Edwards.Curve) (c : Edwards.ProyCoordinates) : (e.newProyPointF c).out = e.newProyPoint c := by
  simp only [Edwards.Curve.newProyPointF, Edwards.Curve.isOnCurveF]; erase; rfl

theorem out_e_newPoint (e : Edwards.Curve) (x y : FpElt) : (e.newPointF x y).out = e.newPoint x y := by
  simp only [Edwards.Curve.newPointF, Edwards.Curve.isOnCurveF]; erase; rfl

theorem out_e_identity (e : Edwards.Curve) : e.identityF.out = e.identity := by
  simp only [Edwards.Curve.identityF]; erase; simp only [out_e_newProy]; rfl

theorem out_e_add (P Q : Edwards.Point) : (P.addF Q).out = P.add Q := by
  simp only [Edwards.Point.addF, Edwards.Point.coreAddF, Edwards.Point.coreAddCoordsF]; erase; simp only [out_e_newProy]; rfl

theorem out_e_neg (P : Edwards.Point) : P.negF.out = P.neg := by
  simp only [Edwards.Point.negF]; erase; simp only [out_e_newProy]; rfl

theorem out_e_sub (P Q : Edwards.Point) : (P.subF Q).out = P.sub Q := by
  simp only [Edwards.Point.subF, out_bind, out_e_add, out_e_neg]; rfl

theorem out_e_eq (P Q : Edwards.Point) : (P.eqF Q).out = P.eq Q := by
  simp only [Edwards.Point.eqF]; erase; rfl

theorem out_e_normalize (P : Edwards.Point) : P.normalizeF.out = P.normalize := by
  simp only [Edwards.Point.normalizeF]; erase; rfl

theorem e_loop {f : Fp} (hp : 0 < f.p) {P : Edwards.Point} (he : EIn f P.e) (hP : EPIn f P.c) :
    ∀ (bs : List Bool) (q S : Edwards.Point), q.e = P.e → EPIn f q.c → (P.mulLoopF bs q).out = R.ok S →
      (P.mulLoopF bs q).ops = bs.flatMap fun b => (eAddC ++ eCheck) ++ if b then eAddC ++ eCheck else []
  | [], q, S, _, _, _ => rfl
  | b :: bs, q, S, hq, hi, h => by
    simp only [Edwards.Point.mulLoopF] at h ⊢
    rw [out_bind, R.bind_eq_ok] at h
    obtain ⟨d, hd, h⟩ := h
    obtain ⟨de, di⟩ := e_add_in hp (hq ▸ he) hi hi hd
    have dops := e_add hp (hq ▸ he) hi hi rfl
    rw [bind_ok hd, dops, List.flatMap_cons]
    cases b
    · simp only [Bool.false_eq_true, if_false, List.append_nil] at h ⊢
      rw [show (T.ok d >>= fun q => P.mulLoopF bs q) = ⟨(P.mulLoopF bs d).out, [] ++ (P.mulLoopF bs d).ops⟩ from bind_ok rfl] at h ⊢
      rw [List.nil_append, e_loop hp he hP bs d S (de.trans hq) di h]
    · simp only [if_true] at h ⊢
      rw [out_bind, R.bind_eq_ok] at h
      obtain ⟨s, hs, h⟩ := h
      obtain ⟨se, si⟩ := e_add_in hp (by rw [de, hq]; exact he) di hP hs
      have aops := e_add hp (by rw [de, hq]; exact he) di hP (de.trans hq)
      rw [bind_ok hs, aops, e_loop hp he hP bs s S (by rw [se, de, hq]) si h]
      simp only [List.append_assoc]

theorem out_e_loop (P : Edwards.Point) : ∀ (bs : List Bool) (q : Edwards.Point), (P.mulLoopF bs q).out = P.mulLoop bs q
  | [], q => rfl
  | b :: bs, q => by
    simp only [Edwards.Point.mulLoopF, Edwards.Point.mulLoop, out_bind, out_e_add, out_if, out_ok, out_e_loop P bs]

theorem out_e_mul (prof : Profile) (P : Edwards.Point) (k : Scalar) : (P.mulF prof k).out = P.mul prof k := by
  simp only [Edwards.Point.mulF, Edwards.Point.coreMulF, out_doIfEq, out_bind, out_e_identity, out_e_loop]
  rfl

theorem e_mul {f : Fp} (hp : 0 < f.p) {P : Edwards.Point} (he : EIn f P.e) (hP : EPIn f P.c) (prof : Profile) (k : Scalar)
    (S : Edwards.Point) (h : P.mul prof k = R.ok S) : ∃ bs, k.iterLR prof = R.ok bs ∧
      (P.mulF prof k).ops = ([.elt, .elt, .elt, .elt] ++ eCheck) ++
        bs.flatMap fun b => (eAddC ++ eCheck) ++ if b then eAddC ++ eCheck else [] := by
  rw [← out_e_mul, Edwards.Point.mulF, out_doIfEq] at h
  rw [Edwards.Point.mulF]
  cases hb : (P.e.r : Int) == k.r
  · rw [hb] at h; cases h
  · rw [hb, doIfEq_true, Edwards.Point.coreMulF, out_bind, R.bind_eq_ok] at h
    obtain ⟨i, hi, h⟩ := h
    rw [out_bind, R.bind_eq_ok] at h
    obtain ⟨bs, hbs, h⟩ := h
    obtain ⟨ie, ii⟩ := e_identity_in hp he hi
    refine ⟨bs, hbs, ?_⟩
    show (Edwards.Point.coreMulF prof P k).ops = _
    rw [Edwards.Point.coreMulF, bind_ok hi, e_identity hp he]
    have : ((⟨k.iterLR prof, []⟩ : T (List Bool)) >>= fun bits => P.mulLoopF bits i) = ⟨(P.mulLoopF bs i).out, [] ++ (P.mulLoopF bs i).ops⟩ :=
      bind_ok hbs
    rw [this, e_loop hp he hP bs i S ie ii h, List.nil_append]

end Redox.FT
