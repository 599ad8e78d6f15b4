import Verif.Model.CodecTrace
import Verif.Proofs.FieldTraceMaps

/-!
# The recorded field operations of encoding and decoding, and their erasure
-/

namespace Redox.FT

theorem out_lift {α : Type} (x : R α) : (T.lift x).out = x := rfl

theorem lift_bind {α β : Type} {x : R α} {a : α} (h : x = R.ok a) (g : α → T β) : T.lift x >>= g = g a := by
  rw [bind_ok (x := T.lift x) h]; rfl

/-! ## Erasure -/

theorem out_w_decode (e : Weierstrass.Curve) (buf : List Byte) : (e.decodeF buf).out = e.decode buf := by
  simp only [Weierstrass.Curve.decodeF, Weierstrass.Curve.decode]
  erase
  simp only [out_lift, out_sqrt, out_w_newPoint, out_w_identity]
  rfl

theorem out_m_decode (e : Montgomery.Curve) (buf : List Byte) : (e.decodeF buf).out = e.decode buf := by
  simp only [Montgomery.Curve.decodeF, Montgomery.Curve.decode]
  erase
  simp only [out_lift, out_sqrt, out_m_newPoint, out_m_identity]
  rfl

theorem out_e_decode (e : Edwards.Curve) (buf : List Byte) : (e.decodeF buf).out = e.decode buf := by
  simp only [Edwards.Curve.decodeF, Edwards.Curve.decode]
  erase
  simp only [out_lift, out_sqrt, out_e_newPoint]
  rfl

theorem out_w_encode (P : Weierstrass.Point) (c : Bool) : (P.encodeF c).out = P.encode c := by
  simp only [Weierstrass.Point.encodeF, Weierstrass.Point.encode]
  erase
  simp only [out_lift, out_w_normalize]
  rfl

theorem out_m_encode (P : Montgomery.Point) (c : Bool) : (P.encodeF c).out = P.encode c := by
  simp only [Montgomery.Point.encodeF, Montgomery.Point.encode]
  erase
  simp only [out_lift, out_m_normalize]
  rfl

theorem out_e_encode (P : Edwards.Point) (c : Bool) : (P.encodeF c).out = P.encode c := by
  simp only [Edwards.Point.encodeF, Edwards.Point.encode]
  erase
  simp only [out_lift, out_e_normalize]
  rfl

/-! ## Encoding -/

theorem ops_bind_nil {α β : Type} {x : T α} {g : α → T β} (h : ∀ a, (g a).ops = []) : (x >>= g).ops = x.ops := by
  show (T.bind x g).ops = _
  rw [T.bind]
  cases x.out with
  | ok a => simp [h a]
  | panic w => rfl

theorem ops_lift {α : Type} (x : R α) : (T.lift x).ops = [] := rfl

theorem w_encode {f : Fp} (hp : 2 ≤ f.p) {P : Weierstrass.Point} (hP : WPIn f P.c) (c : Bool) : (P.encodeF c).ops = [.pow (f.p - 2), .mul, .mul] := by
  rw [← w_normalize hp hP]
  refine ops_bind_nil fun pn => ?_
  dsimp only
  split
  · rfl
  · rw [ops_bind_nil, ops_lift]
    intro xs
    rw [ops_bind_nil, ops_lift]
    intro ys
    split <;> rfl

theorem m_encode {f : Fp} (hp : 2 ≤ f.p) {P : Montgomery.Point} (hP : MPIn f P.c) (c : Bool) : (P.encodeF c).ops = [.pow (f.p - 2), .mul, .mul] := by
  rw [← m_normalize hp hP]
  refine ops_bind_nil fun pn => ?_
  dsimp only
  split
  · rfl
  · rw [ops_bind_nil, ops_lift]
    intro xs
    rw [ops_bind_nil, ops_lift]
    intro ys
    split <;> rfl

theorem e_encode {f : Fp} (hp : 2 ≤ f.p) {P : Edwards.Point} (hP : EPIn f P.c) (c : Bool) :
    (P.encodeF c).ops = [.pow (f.p - 2), .mul, .mul, .mul] := by
  rw [← e_normalize hp hP]
  refine ops_bind_nil fun pn => ?_
  dsimp only
  rw [ops_bind_nil, ops_lift]
  intro xs
  rw [ops_bind_nil, ops_lift]
  intro b
  rfl

/-! ## Decoding -/

/-- The operations of decompression before the choice of the root. -/
def wRoot (p : ℕ) : List FpOp := [.elt, .mul, .add, .mul, .add] ++ sqrtOps p

/-- The operations of decompression before the choice of the root. -/
def mRoot (p : ℕ) : List FpOp := [.elt, .elt, .add, .mul, .add, .mul, .pow (p - 2), .mul, .mul] ++ sqrtOps p

/-- The operations of decompression before the choice of the root. -/
def eRoot (p : ℕ) : List FpOp := [.elt, .mul, .elt, .neg, .add, .mul, .sub, .pow (p - 2), .mul] ++ sqrtOps p ++ [.elt]

theorem ops_choice {f : Fp} (hp : 0 < f.p) {α : Type} {c : Prop} [Decidable c] {r : FpElt} (hr : In f r) {g : FpElt → T α} {t : List FpOp}
    (hg : ∀ y, In f y → (g y).ops = t) : (if c then r.negF >>= g else T.ok r >>= g).ops = (if c then [.neg] else []) ++ t := by
  by_cases h : c
  · rw [if_pos h, if_pos h]
    exact ops_bind (neg_in hp hr) hg
  · rw [if_neg h, if_neg h]
    exact ops_bind (Does.ok hr) hg

theorem ops_ret {α β : Type} (x : T α) (k : α → β) : (x >>= fun a => pure (k a)).ops = x.ops := ops_bind_nil fun _ => rfl

theorem slice_all {α : Type} (t : α) (xs : List α) : slice (t :: xs) 1 (xs.length + 1) = R.ok xs := by simp [slice]

theorem w_decode_compressed {f : Fp} (hp : 3 ≤ f.p) (h : f.p % 4 = 3 ∨ f.p % 8 = 5) {e : Weierstrass.Curve} (he : WIn f e) {xs : List Byte}
    (hl : xs.length = f.sizeBytes) (hv : Big.fromBytesBE xs < f.p) :
    ∃ r, In f r ∧ ∀ t : Byte, t = 2 ∨ t = 3 → (e.decodeF (t :: xs)).ops =
      wRoot f.p ++ ((if t ≠ UInt8.ofNat (signBit r.sgn0 + 2) then [.neg] else []) ++ ([.elt] ++ wCheck)) := by
  obtain ⟨hf, ha, hb⟩ := he
  have h0 : 0 < f.p := by omega
  obtain ⟨x, ox, sx, ix⟩ := elt_in h0 (Big.fromBytesBE xs : ℤ)
  obtain ⟨xx, oxx, sxx, ixx⟩ := fmul h0 (Does.ok ix) (Does.ok ix)
  obtain ⟨x1, o1, s1, i1⟩ := fadd h0 (Does.ok ixx) (Does.ok ha)
  obtain ⟨x2, o2, s2, i2⟩ := fmul h0 (Does.ok i1) (Does.ok ix)
  obtain ⟨x3, o3, s3, i3⟩ := fadd h0 (Does.ok i2) (Does.ok hb)
  obtain ⟨r, o4, s4, i4⟩ := sqrt_in hp h i3
  refine ⟨r, i4, fun t ht => ?_⟩
  have t0 : t ≠ 0 := by rcases ht with rfl | rfl <;> decide
  have t4 : t ≠ 4 := by rcases ht with rfl | rfl <;> decide
  have hlen : (t :: xs).length = e.f.sizeBytes + 1 := by rw [hf, List.length_cons, hl]
  have hs : slice (t :: xs) 1 (e.f.sizeBytes + 1) = R.ok xs := by rw [hf, ← hl]; exact slice_all t xs
  simp only [Weierstrass.Curve.decodeF]
  rw [if_neg (by simp [hlen]), lift_bind (show index (t :: xs) 0 = R.ok t from rfl), lift_bind hs, if_neg (by rw [hf]; omega), if_neg t0, if_neg t4, if_pos ht,
    if_neg (by rw [hlen]; simp), hf]
  rw [bind_ok ox, sx, bind_ok oxx, sxx, bind_ok o1, s1, bind_ok o2, s2, bind_ok o3, s3, bind_ok o4, s4]
  dsimp only
  rw [ops_choice h0 i4 (t := [.elt] ++ wCheck) fun y hy => (ops_ret _ _).trans (w_newPoint h0 ⟨hf, ha, hb⟩ ix hy)]
  simp [wRoot]

theorem m_decode_compressed {f : Fp} (hp : 3 ≤ f.p) (h : f.p % 4 = 3 ∨ f.p % 8 = 5) {e : Montgomery.Curve} (he : MIn f e) {xs : List Byte}
    (hl : xs.length = f.sizeBytes) (hv : Big.fromBytesBE xs < f.p) :
    ∃ r, In f r ∧ ∀ t : Byte, t = 2 ∨ t = 3 → (e.decodeF (t :: xs)).ops =
      mRoot f.p ++ ((if t ≠ UInt8.ofNat (signBit r.sgn0 + 2) then [.neg] else []) ++ ([.elt] ++ mCheck)) := by
  have he' := he
  obtain ⟨hf, ha, hb, -⟩ := he
  have h0 : 0 < f.p := by omega
  obtain ⟨one, oo, so, io⟩ := elt_in h0 1
  obtain ⟨x, ox, sx, ix⟩ := elt_in h0 (Big.fromBytesBE xs : ℤ)
  obtain ⟨x1, o1, s1, i1⟩ := fadd h0 (Does.ok ix) (Does.ok ha)
  obtain ⟨x2, o2, s2, i2⟩ := fmul h0 (Does.ok i1) (Does.ok ix)
  obtain ⟨x3, o3, s3, i3⟩ := fadd h0 (Does.ok i2) (Does.ok io)
  obtain ⟨x4, o4, s4, i4⟩ := fmul h0 (Does.ok i3) (Does.ok ix)
  obtain ⟨x5, o5, s5, i5⟩ := fdiv (by omega) (Does.ok io) (Does.ok hb)
  obtain ⟨x6, o6, s6, i6⟩ := fmul h0 (Does.ok i4) (Does.ok i5)
  obtain ⟨r, o7, s7, i7⟩ := sqrt_in hp h i6
  refine ⟨r, i7, fun t ht => ?_⟩
  have t0 : t ≠ 0 := by rcases ht with rfl | rfl <;> decide
  have t4 : t ≠ 4 := by rcases ht with rfl | rfl <;> decide
  have hlen : (t :: xs).length = e.f.sizeBytes + 1 := by rw [hf, List.length_cons, hl]
  have hs : slice (t :: xs) 1 (e.f.sizeBytes + 1) = R.ok xs := by rw [hf, ← hl]; exact slice_all t xs
  simp only [Montgomery.Curve.decodeF]
  rw [if_neg (by simp [hlen]), lift_bind (show index (t :: xs) 0 = R.ok t from rfl), lift_bind hs, if_neg (by rw [hf]; omega), if_neg t0, if_neg t4, if_pos ht,
    if_neg (by rw [hlen]; simp), hf, Fp.oneF]
  rw [bind_ok oo, so, bind_ok ox, sx, bind_ok o1, s1, bind_ok o2, s2, bind_ok o3, s3, bind_ok o4, s4, bind_ok o5, s5, bind_ok o6, s6, bind_ok o7, s7]
  dsimp only
  rw [ops_choice h0 i7 (t := [.elt] ++ mCheck) fun y hy => (ops_ret _ _).trans (m_newPoint h0 he' ix hy)]
  simp [mRoot]

theorem e_newPoint {f : Fp} (hp : 0 < f.p) {e : Edwards.Curve} {x y : FpElt} (he : EIn f e) (hx : In f x) (hy : In f y) :
    (e.newPointF x y).ops = [.mul] ++ ([.elt] ++ eCheck) := by
  refine ops_bind (s := [.mul]) (fmul hp (Does.ok hx) (Does.ok hy)) fun t ht => ?_
  exact ops_bind (he.fld ▸ elt_in (he.fld ▸ hp) 1) fun _ hz => e_newProy hp he ⟨hx, hy, ht, hz⟩

theorem e_decode_body {f : Fp} (hp : 3 ≤ f.p) (h : f.p % 4 = 3 ∨ f.p % 8 = 5) {e : Edwards.Curve} (he : EIn f e) {y : ℕ} (hv : y < f.p) :
    ∃ r, In f r ∧ ∀ (xs : List Byte) (b : Byte), xs.length + 1 = (Big.bits f.p + 1 + 7) / 8 → Big.fromBytesLE (xs ++ [b &&& 127]) = y →
      ((r.n = 0 ∧ (b >>> 7) &&& 1 = 1) → (e.decodeF (xs ++ [b])).ops = eRoot f.p ∧ e.decode (xs ++ [b]) = R.ok (.error .sqrtFailed)) ∧
      (¬ (r.n = 0 ∧ (b >>> 7) &&& 1 = 1) → (e.decodeF (xs ++ [b])).ops =
        eRoot f.p ++ ((if UInt8.ofNat (signBit r.sgn0) ≠ (b >>> 7) &&& 1 then [.neg] else []) ++ ([.mul] ++ ([.elt] ++ eCheck))) ∧
        ∀ err, e.decode (xs ++ [b]) ≠ R.ok (.error err)) := by
  have he' := he
  obtain ⟨hf, ha, hd⟩ := he
  have h0 : 0 < f.p := by omega
  obtain ⟨yy0, oy, sy, iy⟩ := elt_in h0 (y : ℤ)
  obtain ⟨x1, o1, s1, i1⟩ := fmul h0 (Does.ok iy) (Does.ok iy)
  obtain ⟨x2, o2, s2, i2⟩ := fneg h0 (elt_in h0 1)
  obtain ⟨x3, o3, s3, i3⟩ := fadd h0 (Does.ok i1) (Does.ok i2)
  obtain ⟨x4, o4, s4, i4⟩ := fsub h0 (fmul h0 (Does.ok hd) (Does.ok i1)) (Does.ok ha)
  obtain ⟨x5, o5, s5, i5⟩ := fdiv (by omega) (Does.ok i3) (Does.ok i4)
  obtain ⟨r, o6, s6, i6⟩ := sqrt_in hp h i5
  obtain ⟨z, oz, sz, iz⟩ := elt_in h0 0
  have hz : z = ⟨0, f⟩ := by
    have : f.elt 0 = R.ok z := oz
    simp only [Fp.elt, Big.modFloor] at this
    rw [if_neg (by omega)] at this
    simpa using this.symm
  refine ⟨r, i6, fun xs b hl hb => ?_⟩
  have hr : r = z ↔ r.n = 0 := by
    rw [hz]
    constructor
    · rintro rfl; rfl
    · intro hn; cases r; simp only at hn; subst hn; congr
  have hi : index (xs ++ [b]) ((Big.bits e.f.p + 1 + 7) / 8 - 1) = R.ok b := by
    rw [hf, ← hl, Nat.add_sub_cancel]; simp [index]
  have hset : (xs ++ [b]).set ((Big.bits e.f.p + 1 + 7) / 8 - 1) (b &&& 127) = xs ++ [b &&& 127] := by
    rw [hf, ← hl, Nat.add_sub_cancel]; simp
  have hmain : e.decodeF (xs ++ [b]) = ⟨(if r = z ∧ (b >>> 7) &&& 1 = 1 then pure (.error .sqrtFailed) else
      (do
        let x ← if UInt8.ofNat (signBit r.sgn0) ≠ (b >>> 7) &&& 1 then r.negF else T.ok r
        let P ← e.newPointF x yy0
        return .ok P : T (Except DecodeError Edwards.Point))).out, eRoot f.p ++ (if r = z ∧ (b >>> 7) &&& 1 = 1 then pure (.error .sqrtFailed) else
      (do
        let x ← if UInt8.ofNat (signBit r.sgn0) ≠ (b >>> 7) &&& 1 then r.negF else T.ok r
        let P ← e.newPointF x yy0
        return .ok P : T (Except DecodeError Edwards.Point))).ops⟩ := by
    simp only [Edwards.Curve.decodeF]
    rw [if_neg (by rw [hf, ← hl]; simp), lift_bind hi, hset, hb, if_neg (by rw [hf]; omega), hf, Fp.oneF, Fp.zeroF]
    rw [bind_ok oy, sy, bind_ok o1, s1, bind_ok o2, s2, bind_ok o3, s3, bind_ok o4, s4, bind_ok o5, s5, bind_ok o6, s6, bind_ok oz, sz]
    simp [eRoot]
  constructor
  · rintro ⟨hn, h1⟩
    rw [← out_e_decode, hmain, if_pos ⟨hr.mpr hn, h1⟩]
    exact ⟨List.append_nil _, rfl⟩
  · intro hn
    rw [← out_e_decode, hmain, if_neg (fun hh => hn ⟨hr.mp hh.1, hh.2⟩)]
    constructor
    · show _ ++ _ = _
      congr 1
      exact ops_choice h0 (c := UInt8.ofNat (signBit r.sgn0) ≠ (b >>> 7) &&& 1) i6 (t := [.mul] ++ ([.elt] ++ eCheck)) fun x hx =>
        (ops_ret _ _).trans (e_newPoint h0 he' hx iy)
    · intro err hk
      simp only [out_bind, out_if] at hk
      split at hk
      · obtain ⟨y, -, hk⟩ := R.bind_eq_ok.mp hk
        obtain ⟨P, -, hk⟩ := R.bind_eq_ok.mp hk
        cases hk
      · obtain ⟨y, -, hk⟩ := R.bind_eq_ok.mp hk
        obtain ⟨P, -, hk⟩ := R.bind_eq_ok.mp hk
        cases hk

theorem w_decode_uncompressed {f : Fp} (hp : 0 < f.p) {e : Weierstrass.Curve} (he : WIn f e) {xs ys : List Byte}
    (hl : xs.length = f.sizeBytes) (hl' : ys.length = f.sizeBytes) (hv : Big.fromBytesBE xs < f.p) :
    (e.decodeF (4 :: (xs ++ ys))).ops = if Big.fromBytesBE ys < f.p then [.elt, .elt] ++ ([.elt] ++ wCheck) else [.elt] := by
  have hf := he.fld
  obtain ⟨x, ox, sx, ix⟩ := elt_in hp (Big.fromBytesBE xs : ℤ)
  have hlen : (4 :: (xs ++ ys) : List Byte).length = 2 * e.f.sizeBytes + 1 := by rw [hf, List.length_cons, List.length_append, hl, hl']; omega
  have hs : slice (4 :: (xs ++ ys) : List Byte) 1 (e.f.sizeBytes + 1) = R.ok xs := by rw [hf, ← hl]; simp [slice]
  have hs' : slice (4 :: (xs ++ ys) : List Byte) (e.f.sizeBytes + 1) (4 :: (xs ++ ys) : List Byte).length = R.ok ys := by
    rw [hf, ← hl]
    have h : List.take (xs.length + ys.length) (xs ++ ys) = xs ++ ys := List.take_of_length_le (by simp)
    simp [slice, h]
  simp only [Weierstrass.Curve.decodeF]
  rw [if_neg (by simp [hlen]), lift_bind (show index (4 :: (xs ++ ys) : List Byte) 0 = R.ok 4 from rfl), lift_bind hs, if_neg (by rw [hf]; omega),
    if_neg (by decide), if_pos rfl, if_neg (by rw [hlen]; simp), hf, bind_ok ox, sx, ← hf, lift_bind hs', hf]
  by_cases hy : Big.fromBytesBE ys < f.p
  · rw [if_neg (by omega), if_pos hy]
    show [FpOp.elt] ++ _ = [.elt] ++ _
    congr 1
    exact ops_bind (s := [.elt]) (elt_in hp _) fun y iy => (ops_ret _ _).trans (w_newPoint hp he ix iy)
  · rw [if_pos (by omega), if_neg hy]
    rfl

theorem w_decode_error {f : Fp} (hp : 0 < f.p) {e : Weierstrass.Curve} (he : WIn f e) {buf : List Byte} {err : DecodeError}
    (h : e.decode buf = R.ok (.error err)) : (e.decodeF buf).ops = if err = .invalidY then [.elt] else [] := by
  have hf := he.fld
  rw [← out_w_decode] at h
  revert h
  simp only [Weierstrass.Curve.decodeF]
  split
  · intro h; cases h; rfl
  cases hi : index buf 0 with
  | panic w => intro h; cases h
  | ok t =>
  rw [lift_bind (rfl : R.ok t = R.ok t)]
  cases hs : slice buf 1 (e.f.sizeBytes + 1) with
  | panic w => intro h; cases h
  | ok xs =>
  rw [lift_bind (rfl : R.ok xs = R.ok xs)]
  split
  · intro h; cases h; rfl
  split
  · split
    · intro h; cases h; rfl
    · rw [out_bind]; intro h
      obtain ⟨P, -, hP⟩ := R.bind_eq_ok.mp h
      cases hP
  split
  · split
    · intro h; cases h; rfl
    · obtain ⟨x, ox, sx, ix⟩ := elt_in hp (Big.fromBytesBE xs : ℤ)
      rw [hf, bind_ok ox, sx, ← hf]
      cases hs' : slice buf (e.f.sizeBytes + 1) buf.length with
      | panic w =>
        intro h
        cases h
      | ok ys =>
        rw [lift_bind (rfl : R.ok ys = R.ok ys)]
        split
        · intro h; cases h; rfl
        · intro h
          simp only [out_bind] at h
          obtain ⟨y, -, h⟩ := R.bind_eq_ok.mp h
          obtain ⟨P, -, h⟩ := R.bind_eq_ok.mp h
          cases h
  split
  · split
    · intro h; cases h; rfl
    · intro h
      simp only [out_bind, out_if, R.bind_eq_ok] at h
      exfalso
      obtain ⟨_, -, _, -, _, -, _, -, _, -, _, -, h⟩ := h
      split at h
      · obtain ⟨y, -, h⟩ := R.bind_eq_ok.mp h
        obtain ⟨P, -, h⟩ := R.bind_eq_ok.mp h
        cases h
      · obtain ⟨y, -, h⟩ := R.bind_eq_ok.mp h
        obtain ⟨P, -, h⟩ := R.bind_eq_ok.mp h
        cases h
  · intro h; cases h; rfl

theorem m_decode_uncompressed {f : Fp} (hp : 0 < f.p) {e : Montgomery.Curve} (he : MIn f e) {xs ys : List Byte}
    (hl : xs.length = f.sizeBytes) (hl' : ys.length = f.sizeBytes) (hv : Big.fromBytesBE xs < f.p) :
    (e.decodeF (4 :: (xs ++ ys))).ops = if Big.fromBytesBE ys < f.p then [.elt, .elt] ++ ([.elt] ++ mCheck) else [.elt] := by
  have hf := he.fld
  obtain ⟨x, ox, sx, ix⟩ := elt_in hp (Big.fromBytesBE xs : ℤ)
  have hlen : (4 :: (xs ++ ys) : List Byte).length = 2 * e.f.sizeBytes + 1 := by rw [hf, List.length_cons, List.length_append, hl, hl']; omega
  have hs : slice (4 :: (xs ++ ys) : List Byte) 1 (e.f.sizeBytes + 1) = R.ok xs := by rw [hf, ← hl]; simp [slice]
  have hs' : slice (4 :: (xs ++ ys) : List Byte) (e.f.sizeBytes + 1) (4 :: (xs ++ ys) : List Byte).length = R.ok ys := by
    rw [hf, ← hl]
    have h : List.take (xs.length + ys.length) (xs ++ ys) = xs ++ ys := List.take_of_length_le (by simp)
    simp [slice, h]
  simp only [Montgomery.Curve.decodeF]
  rw [if_neg (by simp [hlen]), lift_bind (show index (4 :: (xs ++ ys) : List Byte) 0 = R.ok 4 from rfl), lift_bind hs, if_neg (by rw [hf]; omega),
    if_neg (by decide), if_pos rfl, if_neg (by rw [hlen]; simp), hf, bind_ok ox, sx, ← hf, lift_bind hs', hf]
  by_cases hy : Big.fromBytesBE ys < f.p
  · rw [if_neg (by omega), if_pos hy]
    show [FpOp.elt] ++ _ = [.elt] ++ _
    congr 1
    exact ops_bind (s := [.elt]) (elt_in hp _) fun y iy => (ops_ret _ _).trans (m_newPoint hp he ix iy)
  · rw [if_pos (by omega), if_neg hy]
    rfl

theorem m_decode_error {f : Fp} (hp : 0 < f.p) {e : Montgomery.Curve} (he : MIn f e) {buf : List Byte} {err : DecodeError}
    (h : e.decode buf = R.ok (.error err)) : (e.decodeF buf).ops = if err = .invalidY then [.elt] else [] := by
  have hf := he.fld
  rw [← out_m_decode] at h
  revert h
  simp only [Montgomery.Curve.decodeF]
  split
  · intro h; cases h; rfl
  cases hi : index buf 0 with
  | panic w => intro h; cases h
  | ok t =>
  rw [lift_bind (rfl : R.ok t = R.ok t)]
  cases hs : slice buf 1 (e.f.sizeBytes + 1) with
  | panic w => intro h; cases h
  | ok xs =>
  rw [lift_bind (rfl : R.ok xs = R.ok xs)]
  split
  · intro h; cases h; rfl
  split
  · split
    · intro h; cases h; rfl
    · rw [out_bind]; intro h
      obtain ⟨P, -, hP⟩ := R.bind_eq_ok.mp h
      cases hP
  split
  · split
    · intro h; cases h; rfl
    · obtain ⟨x, ox, sx, ix⟩ := elt_in hp (Big.fromBytesBE xs : ℤ)
      rw [hf, bind_ok ox, sx, ← hf]
      cases hs' : slice buf (e.f.sizeBytes + 1) buf.length with
      | panic w =>
        intro h
        cases h
      | ok ys =>
        rw [lift_bind (rfl : R.ok ys = R.ok ys)]
        split
        · intro h; cases h; rfl
        · intro h
          simp only [out_bind] at h
          obtain ⟨y, -, h⟩ := R.bind_eq_ok.mp h
          obtain ⟨P, -, h⟩ := R.bind_eq_ok.mp h
          cases h
  split
  · split
    · intro h; cases h; rfl
    · intro h
      simp only [out_bind, out_if, R.bind_eq_ok] at h
      exfalso
      obtain ⟨_, -, _, -, _, -, _, -, _, -, _, -, _, -, _, -, _, -, h⟩ := h
      split at h
      · obtain ⟨y, -, h⟩ := R.bind_eq_ok.mp h
        obtain ⟨P, -, h⟩ := R.bind_eq_ok.mp h
        cases h
      · obtain ⟨y, -, h⟩ := R.bind_eq_ok.mp h
        obtain ⟨P, -, h⟩ := R.bind_eq_ok.mp h
        cases h
  · intro h; cases h; rfl

theorem e_decode_error {f : Fp} (hp : 3 ≤ f.p) (hq : f.p % 4 = 3 ∨ f.p % 8 = 5) {e : Edwards.Curve} (he : EIn f e) {buf : List Byte} {err : DecodeError}
    (h : e.decode buf = R.ok (.error err)) : (e.decodeF buf).ops = if err = .sqrtFailed then eRoot f.p else [] := by
  have hf := he.fld
  by_cases hl : buf.length = (Big.bits f.p + 1 + 7) / 8
  · obtain ⟨xs, b, rfl⟩ : ∃ xs b, buf = xs ++ [b] := by
      rcases List.eq_nil_or_concat buf with rfl | ⟨xs, b, rfl⟩
      · simp at hl; omega
      · exact ⟨xs, b, List.concat_eq_append⟩
    rw [List.length_append, List.length_singleton] at hl
    by_cases hv : Big.fromBytesLE (xs ++ [b &&& 127]) < f.p
    · obtain ⟨r, hr, hb⟩ := e_decode_body hp hq he hv
      obtain ⟨h1, h2⟩ := hb xs b hl rfl
      by_cases hc : r.n = 0 ∧ (b >>> 7) &&& 1 = 1
      · obtain ⟨h3, h4⟩ := h1 hc
        rw [h4] at h
        cases h
        rw [h3]; rfl
      · exact absurd h ((h2 hc).2 err)
    · have hi : index (xs ++ [b]) ((Big.bits e.f.p + 1 + 7) / 8 - 1) = R.ok b := by
        rw [hf, ← hl, Nat.add_sub_cancel]; simp [index]
      have hset : (xs ++ [b]).set ((Big.bits e.f.p + 1 + 7) / 8 - 1) (b &&& 127) = xs ++ [b &&& 127] := by
        rw [hf, ← hl, Nat.add_sub_cancel]; simp
      have hd : e.decodeF (xs ++ [b]) = pure (.error .invalidYChosen) := by
        simp only [Edwards.Curve.decodeF]
        rw [if_neg (by rw [hf, ← hl]; simp), lift_bind hi, hset, if_pos (by rw [hf]; omega)]
      rw [← out_e_decode, hd] at h
      cases h
      rw [hd]; rfl
  · have hd : e.decodeF buf = pure (.error .wrongSize) := by
      simp only [Edwards.Curve.decodeF]
      rw [if_pos (by rw [hf]; exact hl)]
    rw [← out_e_decode, hd] at h
    cases h
    rw [hd]; rfl

end Redox.FT
