import Verif.Proofs.FieldTraceOps

/-!
# The recorded field operations of the maps to curves, and their erasure
-/

namespace Redox.FT

variable {f : Fp}

theorem zero_in (hp : 0 < f.p) : Does f.zeroF [.elt] (In f) := elt_in hp 0
theorem one_in (hp : 0 < f.p) : Does f.oneF [.elt] (In f) := elt_in hp 1
theorem fromPrim_in (hp : 0 < f.p) (n : ℤ) : Does (f.fromPrimF n) [.elt] (In f) := elt_in hp n

/-- Operands: known elements, choices between such, and results of earlier operations. -/
macro "flatm" : tactic => `(tactic| (repeat' (first
  | with_reducible assumption | omega
  | with_reducible exact Does.ok (by assumption) | with_reducible exact Does.ret (by assumption)
  | with_reducible apply fadd | with_reducible apply fsub | with_reducible apply fmul | with_reducible apply fdiv | with_reducible apply fneg
  | with_reducible apply fsqr | with_reducible apply finv
  | with_reducible apply zero_in | with_reducible apply one_in | with_reducible apply fromPrim_in
  | with_reducible apply isSquare_in | with_reducible apply inv_in | with_reducible apply neg_in | with_reducible apply sqrt_in
  | with_reducible apply Does.ok | with_reducible apply cmov_in)))

/-- One operation after the other, up to the last call. -/
macro "runs" f:ident : tactic => `(tactic| (repeat (first
  | ((with_reducible apply ops_bind (Q := In $f)); (focus (flatm; done)); intro _ _)
  | ((with_reducible apply ops_bind (Q := fun _ => True)); (focus (flatm; done)); intro _ _))))

theorem w_newPoint (hp : 0 < f.p) {e : Weierstrass.Curve} {x y : FpElt} (he : WIn f e) (hx : In f x) (hy : In f y) :
    (e.newPointF x y).ops = [.elt] ++ wCheck :=
  ops_bind (he.fld ▸ elt_in (he.fld ▸ hp) 1) fun _ hz => w_newProy hp he ⟨hx, hy, hz⟩

theorem m_newPoint (hp : 0 < f.p) {e : Montgomery.Curve} {x y : FpElt} (he : MIn f e) (hx : In f x) (hy : In f y) :
    (e.newPointF x y).ops = [.elt] ++ mCheck :=
  ops_bind (he.fld ▸ elt_in (he.fld ▸ hp) 1) fun _ hz => m_newProy hp he ⟨hx, hy, hz⟩

/-- The elements stored in the map belong to the field `f`. -/
structure SSWUIn (f : Fp) (m : Weierstrass.SSWU) : Prop where
  e : WIn f m.e
  c1 : In f m.c1
  c2 : In f m.c2
  z : In f m.z

def sswuOps (p : ℕ) : List FpOp :=
  [.mul, .mul, .mul, .add, .pow (p - 2), .elt, .add, .mul, .mul, .add, .mul, .add, .mul, .mul, .mul, .pow ((p - 1) / 2)] ++
    (sqrtOps p ++ ([.neg, .elt] ++ wCheck))

set_option maxHeartbeats 1000000 in
theorem sswu_ops (h3 : 3 ≤ f.p) (hs : f.p % 4 = 3 ∨ f.p % 8 = 5) {m : Weierstrass.SSWU} (hm : SSWUIn f m) {u : FpElt} (hu : In f u) :
    (m.mapF u).ops = sswuOps f.p := by
  obtain ⟨he, hc1, hc2, hz⟩ := hm
  have hA := he.a
  have hB := he.b
  apply Eq.trans
  · simp only [Weierstrass.SSWU.mapF, Weierstrass.Curve.getField, he.fld]
    runs f
    exact w_newPoint (by omega) he (cmov_in (by assumption) (by assumption) _) (cmov_in (by assumption) (by assumption) _)
  · rfl

theorem out_sswu (m : Weierstrass.SSWU) (u : FpElt) : (m.mapF u).out = m.map u := by
  simp only [Weierstrass.SSWU.mapF]
  erase
  simp only [out_sqrt, out_w_newPoint]
  rfl

/-- The elements stored in the map belong to the field `f`. -/
structure SVDWIn (f : Fp) (m : Weierstrass.SVDW) : Prop where
  e : WIn f m.e
  c1 : In f m.c1
  c2 : In f m.c2
  c3 : In f m.c3
  c4 : In f m.c4
  z : In f m.z

def svdwOps (p : ℕ) : List FpOp :=
  [.mul, .mul, .elt, .add, .elt, .sub, .mul, .pow (p - 2), .mul, .mul, .mul, .sub, .mul, .add, .mul, .add, .pow ((p - 1) / 2),
    .add, .mul, .add, .mul, .add, .pow ((p - 1) / 2), .mul, .mul, .mul, .mul, .add, .mul, .add, .mul, .add] ++
    (sqrtOps p ++ ([.neg, .elt] ++ wCheck))

set_option maxHeartbeats 1000000 in
theorem svdw_ops (h3 : 3 ≤ f.p) (hs : f.p % 4 = 3 ∨ f.p % 8 = 5) {m : Weierstrass.SVDW} (hm : SVDWIn f m) {u : FpElt} (hu : In f u) :
    (m.mapF u).ops = svdwOps f.p := by
  obtain ⟨he, hc1, hc2, hc3, hc4, hz⟩ := hm
  have hA := he.a
  have hB := he.b
  apply Eq.trans
  · simp only [Weierstrass.SVDW.mapF, Weierstrass.Curve.getField, he.fld]
    runs f
    exact w_newPoint (by omega) he (cmov_in (cmov_in (by assumption) (by assumption) _) (by assumption) _) (cmov_in (by assumption) (by assumption) _)
  · rfl

theorem out_svdw (m : Weierstrass.SVDW) (u : FpElt) : (m.mapF u).out = m.map u := by
  simp only [Weierstrass.SVDW.mapF]
  erase
  simp only [out_sqrt, out_w_newPoint]
  rfl

/-- The elements stored in the map belong to the field `f`. -/
structure Ell2In (f : Fp) (m : Montgomery.Ell2) : Prop where
  e : MIn f m.e
  ca : In f m.ca
  cb : In f m.cb
  z : In f m.z

def ell2Ops (p : ℕ) : List FpOp :=
  [.mul, .mul, .elt, .elt, .elt, .add, .pow (p - 2), .neg, .mul, .add, .mul, .add, .mul, .neg, .sub, .mul, .pow ((p - 1) / 2)] ++
    (sqrtOps p ++ ([.neg, .mul, .mul, .elt] ++ mCheck))

set_option maxHeartbeats 1000000 in
theorem ell2_ops (h3 : 3 ≤ f.p) (hs : f.p % 4 = 3 ∨ f.p % 8 = 5) {m : Montgomery.Ell2} (hm : Ell2In f m) {u : FpElt} (hu : In f u) :
    (m.mapF u).ops = ell2Ops f.p := by
  obtain ⟨he, hca, hcb, hz⟩ := hm
  have hB := he.b
  apply Eq.trans
  · simp only [Montgomery.Ell2.mapF, Montgomery.Curve.getField, he.fld]
    runs f
    exact m_newPoint (by omega) he (by assumption) (by assumption)
  · rfl

theorem out_ell2 (m : Montgomery.Ell2) (u : FpElt) : (m.mapF u).out = m.map u := by
  simp only [Montgomery.Ell2.mapF]
  erase
  simp only [out_sqrt, out_m_newPoint]
  rfl

/-! What the maps return. -/

theorem w_newPoint_in (hp : 0 < f.p) {e : Weierstrass.Curve} {x y : FpElt} {P : Weierstrass.Point} (he : WIn f e) (hx : In f x) (hy : In f y)
    (h : (e.newPointF x y).out = R.ok P) : P.e = e ∧ WPIn f P.c := by
  obtain ⟨z, hz, _, hi⟩ := (he.fld ▸ elt_in (he.fld ▸ hp) 1 : Does (e.f.eltF 1) [.elt] (In f))
  have h' : (e.f.eltF 1 >>= fun z => e.newProyPointF ⟨x, y, z⟩).out = R.ok P := h
  rw [out_bind, hz] at h'
  obtain ⟨h1, h2⟩ := w_newProy_in h'
  exact ⟨h1, h2 ▸ ⟨hx, hy, hi⟩⟩

theorem m_newPoint_in (hp : 0 < f.p) {e : Montgomery.Curve} {x y : FpElt} {P : Montgomery.Point} (he : MIn f e) (hx : In f x) (hy : In f y)
    (h : (e.newPointF x y).out = R.ok P) : P.e = e ∧ MPIn f P.c ∧ e.f.one = R.ok P.c.z := by
  obtain ⟨z, hz, _, hi⟩ := (he.fld ▸ elt_in (he.fld ▸ hp) 1 : Does (e.f.eltF 1) [.elt] (In f))
  have h' : (e.f.eltF 1 >>= fun z => e.newProyPointF ⟨x, y, z⟩).out = R.ok P := h
  rw [out_bind, hz] at h'
  obtain ⟨h1, h2⟩ := m_newProy_in h'
  exact ⟨h1, h2 ▸ ⟨hx, hy, hi⟩, h2 ▸ hz⟩

theorem out_step {α β : Type} {x : T α} {g : α → T β} {b : β} {s : List FpOp} {Q : α → Prop} (h : (x >>= g).out = R.ok b) (hx : Does x s Q) :
    ∃ a, Q a ∧ (g a).out = R.ok b := by
  obtain ⟨a, ha, _, hq⟩ := hx
  rw [out_bind, ha] at h
  exact ⟨a, hq, h⟩

/-- One operation after the other in a computation that returns. -/
macro "takes" h:ident f:ident : tactic => `(tactic| (repeat (first
  | (replace $h := out_step (Q := In $f) $h (by (focus (flatm; done)))
     obtain ⟨_, _, $h⟩ := $h)
  | (replace $h := out_step (Q := fun _ => True) $h (by (focus (flatm; done)))
     obtain ⟨_, _, $h⟩ := $h))))

set_option maxHeartbeats 1000000 in
theorem sswu_in (h3 : 3 ≤ f.p) (hs : f.p % 4 = 3 ∨ f.p % 8 = 5) {m : Weierstrass.SSWU} (hm : SSWUIn f m) {u : FpElt} (hu : In f u)
    {P : Weierstrass.Point} (h : (m.mapF u).out = R.ok P) : P.e = m.e ∧ WPIn f P.c := by
  obtain ⟨he, hc1, hc2, hz⟩ := hm
  have hA := he.a
  have hB := he.b
  simp only [Weierstrass.SSWU.mapF, Weierstrass.Curve.getField, he.fld] at h
  takes h f
  exact w_newPoint_in (by omega) he (cmov_in (by assumption) (by assumption) _) (cmov_in (by assumption) (by assumption) _) h

set_option maxHeartbeats 1000000 in
theorem ell2_in (h3 : 3 ≤ f.p) (hs : f.p % 4 = 3 ∨ f.p % 8 = 5) {m : Montgomery.Ell2} (hm : Ell2In f m) {u : FpElt} (hu : In f u)
    {P : Montgomery.Point} (h : (m.mapF u).out = R.ok P) : P.e = m.e ∧ MPIn f P.c ∧ f.one = R.ok P.c.z := by
  obtain ⟨he, hca, hcb, hz⟩ := hm
  have hB := he.b
  simp only [Montgomery.Ell2.mapF, Montgomery.Curve.getField, he.fld] at h
  takes h f
  have := m_newPoint_in (by omega) he (by assumption) (by assumption) h
  rw [he.fld] at this
  exact this

/-! Isogenies and rational maps. -/

/-- The operations of the evaluation of a polynomial with `n` coefficients. -/
def hornerOps (n : ℕ) : List FpOp := .elt :: (List.replicate n [.mul, .add]).flatten

theorem horner_in (hp : 0 < f.p) {x : FpElt} (hx : In f x) : ∀ cs : List FpElt, (∀ c ∈ cs, In f c) →
    Does (hornerF f x cs) (hornerOps cs.length) (In f)
  | [], _ => zero_in hp
  | c :: cs, h => by
    have ih := horner_in hp hx cs fun c hc => h c (List.mem_cons_of_mem _ hc)
    apply Does.cast
    · exact fadd hp (fmul hp ih (Does.ok hx)) (Does.ok (h c (List.mem_cons_self ..)))
    · simp only [hornerOps, List.length_cons, List.nil_append, List.cons_append, List.append_assoc]
      rw [List.replicate_succ', List.flatten_append]
      simp

theorem out_horner (f : Fp) (x : FpElt) : ∀ cs : List FpElt, (hornerF f x cs).out = horner f x cs
  | [] => rfl
  | c :: cs => by simp only [hornerF, horner, out_fadd, out_fmul, out_ok, out_horner f x cs]

/-- The elements stored in the isogeny belong to the field `f`. -/
structure IsoIn (f : Fp) (m : IsoMap) : Prop where
  e0 : m.e0.f = f
  e1 : WIn f m.e1
  x_num : ∀ c ∈ m.x_num, In f c
  x_den : ∀ c ∈ m.x_den, In f c
  y_num : ∀ c ∈ m.y_num, In f c
  y_den : ∀ c ∈ m.y_den, In f c

def isoOps (p a b c d : ℕ) : List FpOp :=
  hornerOps a ++ (hornerOps b ++ (hornerOps c ++ (hornerOps d ++ ([.pow (p - 2), .mul, .pow (p - 2), .mul, .mul, .elt] ++ wCheck))))

theorem push_ops (h2 : 2 ≤ f.p) {m : IsoMap} (hm : IsoIn f m) {P : Weierstrass.Point} (hP : WPIn f P.c) :
    (m.pushF P).ops = isoOps f.p m.x_num.length m.x_den.length m.y_num.length m.y_den.length := by
  obtain ⟨h0, h1, ha, hb, hc, hd⟩ := hm
  obtain ⟨hx, hy, hz⟩ := hP
  have hp : 0 < f.p := by omega
  apply Eq.trans
  · simp only [IsoMap.pushF, Weierstrass.Curve.getField, h0]
    apply ops_bind (horner_in hp hx _ ha); intro _ _
    apply ops_bind (horner_in hp hx _ hb); intro _ _
    apply ops_bind (horner_in hp hx _ hc); intro _ _
    apply ops_bind (horner_in hp hx _ hd); intro _ _
    runs f
    exact w_newPoint hp h1 (by assumption) (by assumption)
  · rfl

theorem out_push (m : IsoMap) (P : Weierstrass.Point) : (m.pushF P).out = m.push P := by
  simp only [IsoMap.pushF]
  erase
  simp only [out_horner, out_w_newPoint]
  rfl

def pull25519Ops : List FpOp :=
  [.add, .sub, .mul, .mul, .mul, .mul, .mul, .mul] ++ eCheck

theorem pull25519_ops (hp : 0 < f.p) {m : Ed2Mt25519} (h0 : EIn f m.e0) (hd : In f m.invsqr_d) {P : Montgomery.Point} (hP : MPIn f P.c)
    (hz : P.isZero = false) (ht : P.isTwoTorsion = false) : (m.pullF P).ops = pull25519Ops := by
  obtain ⟨hx, hy, hz'⟩ := hP
  apply Eq.trans
  · simp only [Ed2Mt25519.pullF, hz, ht, Bool.false_eq_true, if_false]
    runs f
    exact e_newProy hp h0 ⟨by assumption, by assumption, by assumption, by assumption⟩
  · rfl

theorem out_pull25519 (m : Ed2Mt25519) (P : Montgomery.Point) : (m.pullF P).out = m.pull P := by
  simp only [Ed2Mt25519.pullF]
  erase
  simp only [out_e_newProy, out_e_identity]
  rfl

def pull448Ops : List FpOp :=
  [.elt, .elt, .mul, .mul, .mul, .mul, .mul, .mul, .mul, .mul, .mul, .mul, .sub, .mul, .mul, .mul, .sub, .add, .mul, .mul, .add, .mul, .mul, .sub,
    .mul, .add, .mul, .mul, .mul, .sub, .neg, .mul, .mul, .sub, .mul, .add, .mul, .mul, .mul, .sub, .mul, .mul, .sub, .mul, .mul, .mul, .mul] ++ eCheck

set_option maxHeartbeats 1000000 in
theorem pull448_ops (hp : 0 < f.p) {m : Ed4isoMt448} (h0 : EIn f m.e0) {P : Montgomery.Point} (hP : MPIn f P.c)
    (hz : P.isZero = false) : (m.pullF P).ops = pull448Ops := by
  obtain ⟨hx, hy, hz'⟩ := hP
  apply Eq.trans
  · simp only [Ed4isoMt448.pullF, hz, Bool.false_eq_true, if_false, Edwards.Curve.getField, h0.fld]
    runs f
    exact e_newProy hp h0 ⟨by assumption, by assumption, by assumption, by assumption⟩
  · rfl

theorem out_pull448 (m : Ed4isoMt448) (P : Montgomery.Point) : (m.pullF P).out = m.pull P := by
  simp only [Ed4isoMt448.pullF]
  erase
  simp only [out_e_newProy, out_e_identity]
  rfl

end Redox.FT
