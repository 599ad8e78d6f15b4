import Verif.Spec.ScalarClient
import Verif.Props.ScalarProps
import Verif.Props.FieldClientProps

/-!
# C123: a client cannot tell the scalars of the library from the integers modulo `r`
-/

namespace Redox.Props.ScalarClientProps

open Spec Redox.Props.FieldClientProps

/-- `A` computes with the images under `g` what `B` computes, and makes the same observations. -/
structure SameS {K L : Type} (g : L → K) (A : ScalarApi K) (B : ScalarApi L) : Prop where
  ofInt : ∀ n, A.ofInt n = B.ofInt n >>= fun v => R.ok (g v)
  add : ∀ a b, A.add (g a) (g b) = B.add a b >>= fun v => R.ok (g v)
  sub : ∀ a b, A.sub (g a) (g b) = B.sub a b >>= fun v => R.ok (g v)
  mul : ∀ a b, A.mul (g a) (g b) = B.mul a b >>= fun v => R.ok (g v)
  div : ∀ a b, A.div (g a) (g b) = B.div a b >>= fun v => R.ok (g v)
  neg : ∀ a, A.neg (g a) = B.neg a >>= fun v => R.ok (g v)
  inv : ∀ a, A.inv (g a) = B.inv a >>= fun v => R.ok (g v)
  eq : ∀ a b, A.eq (g a) (g b) = B.eq a b
  bitsUp : ∀ a, A.bitsUp (g a) = B.bitsUp a
  bitsDown : ∀ a, A.bitsDown (g a) = B.bitsDown a
  bytesBE : ∀ a, A.bytesBE (g a) = B.bytesBE a
  bytesLE : ∀ a, A.bytesLE (g a) = B.bytesLE a
  text : ∀ a, A.text (g a) = B.text a

/-- Such an `A` cannot be told from `B`. -/
theorem run_sameS {K L α : Type} {g : L → K} {A : ScalarApi K} {B : ScalarApi L} (H : SameS g A B) (cl : ScalarClient α) (ρ : ℕ → L) :
    cl.run A (g ∘ ρ) = cl.run B ρ := by
  have step : ∀ (r : R L) (i : ℕ) (k : ScalarClient α) (ρ : ℕ → L), (∀ ρ, k.run A (g ∘ ρ) = k.run B ρ) →
      ((r >>= fun v => R.ok (g v)) >>= fun x => k.run A (Function.update (g ∘ ρ) i x)) = r >>= fun v => k.run B (Function.update ρ i v) := by
    intro r i k ρ ih
    rcases r with v | f
    · simp only [R.ok_bind, ← Function.comp_update]
      exact ih _
    · rfl
  induction cl generalizing ρ with
  | done x => rfl
  | ofInt i n k ih => simp only [ScalarClient.run, H.ofInt]; exact step _ i k ρ ih
  | add i a b k ih => simp only [ScalarClient.run, Function.comp_apply, H.add]; exact step _ i k ρ ih
  | sub i a b k ih => simp only [ScalarClient.run, Function.comp_apply, H.sub]; exact step _ i k ρ ih
  | mul i a b k ih => simp only [ScalarClient.run, Function.comp_apply, H.mul]; exact step _ i k ρ ih
  | div i a b k ih => simp only [ScalarClient.run, Function.comp_apply, H.div]; exact step _ i k ρ ih
  | neg i a k ih => simp only [ScalarClient.run, Function.comp_apply, H.neg]; exact step _ i k ρ ih
  | inv i a k ih => simp only [ScalarClient.run, Function.comp_apply, H.inv]; exact step _ i k ρ ih
  | eq a b k ih => simp only [ScalarClient.run, Function.comp_apply, H.eq, ih]
  | bitsUp a k ih => simp only [ScalarClient.run, Function.comp_apply, H.bitsUp, ih]
  | bitsDown a k ih => simp only [ScalarClient.run, Function.comp_apply, H.bitsDown, ih]
  | bytesBE a k ih => simp only [ScalarClient.run, Function.comp_apply, H.bytesBE, ih]
  | bytesLE a k ih => simp only [ScalarClient.run, Function.comp_apply, H.bytesLE, ih]
  | text a k ih => simp only [ScalarClient.run, Function.comp_apply, H.text, ih]

section
variable (r : ℕ) [Fact r.Prime]

/-- The scalar of a residue. -/
def sc (a : ZMod r) : Scalar := ⟨(a.cast : ℤ), r⟩

theorem canon_sc (a : ZMod r) : CanonScalar r (sc r a) := ⟨rfl, cast_nonneg a, cast_lt a⟩

theorem new_sc (n : ℤ) : Scalar.new n r = R.ok (sc r (n : ZMod r)) := by
  rw [scalar_new_eq r (Fact.out : r.Prime).one_le, sc, cast_int_eq]

theorem sc_inj {a b : ZMod r} : sc r a = sc r b ↔ a = b := by
  constructor
  · intro h
    have : (a.cast : ℤ) = b.cast := congrArg Scalar.k h
    rw [← cast_cast_int a, this, cast_cast_int]
  · rintro rfl; rfl

theorem ops_sc (a b : ZMod r) : (sc r a).add (sc r b) = R.ok (sc r (a + b)) ∧ (sc r a).sub (sc r b) = R.ok (sc r (a - b)) ∧
    (sc r a).mul (sc r b) = R.ok (sc r (a * b)) ∧ (sc r a).neg = R.ok (sc r (-a)) := by
  obtain ⟨x, y, hx, hy, -, -, h1, h2, h3, h4, -⟩ := C19_arith r (Fact.out : r.Prime).one_le (a.cast : ℤ) (b.cast : ℤ)
  rw [new_sc, cast_cast_int, R.ok.injEq] at hx hy
  subst hx hy
  rw [h1, h2, h3, h4]
  simp only [new_sc, Int.cast_add, Int.cast_sub, Int.cast_mul, Int.cast_neg, cast_cast_int, and_self]

theorem of_canon {s : Scalar} (h : CanonScalar r s) : s = sc r (s.k : ZMod r) := by
  obtain ⟨k, r'⟩ := s
  obtain ⟨h1, h2, h3⟩ := h
  simp only at h1 h2 h3
  subst h1
  rw [sc, cast_int_eq, Int.emod_eq_of_lt h2 h3]

theorem div_sc (h2 : r ≠ 2) (a b : ZMod r) : (sc r a).div (sc r b) = R.ok (sc r (a / b)) ∧ Scalar.u32Div 1 (sc r b) = R.ok (sc r b⁻¹) := by
  have hr : r.Prime := Fact.out
  by_cases hb : b = 0
  · subst hb
    have h0 : (sc r 0).k = 0 := by simp [sc]
    refine ⟨?_, ?_⟩
    · rw [(C19_div r hr h2 _ _ (canon_sc r a) (canon_sc r 0)).2.2 h0, new_sc]; simp
    · have h1 := (C19_div r hr h2 _ _ (canon_sc r 1) (canon_sc r 0)).2.2 h0
      rw [Scalar.div] at h1
      obtain ⟨i, hi, hm⟩ := R.bind_eq_ok.1 (h1.trans (new_sc r 0))
      have hu : Scalar.u32Div 1 (sc r 0) = R.ok i := by simpa [Scalar.u32Div] using hi
      have hci : CanonScalar r i := by
        simp only [Scalar.invMod, Scalar.red] at hi
        obtain ⟨t, -, hi⟩ := R.bind_eq_ok.1 hi
        obtain ⟨u, hu', hi⟩ := R.bind_eq_ok.1 hi
        simp only [R.pure_eq, R.ok.injEq] at hi
        subst hi
        have hz : (r : ℤ) ≠ 0 := Int.natCast_ne_zero.2 hr.ne_zero
        simp only [sc, Big.modFloor, hz, if_false, R.ok.injEq, Int.fmod_eq_emod_of_nonneg _ (Int.natCast_nonneg r)] at hu'
        subst hu'
        exact ⟨rfl, Int.emod_nonneg _ hz, Int.emod_lt_of_pos _ (by exact_mod_cast hr.pos)⟩
      rw [hu]
      obtain ⟨z, rfl⟩ : ∃ z, i = sc r z := ⟨_, of_canon r hci⟩
      rw [(ops_sc r _ _).2.2.1, one_mul, R.ok.injEq, sc_inj] at hm
      rw [hm]; simp
  · have h0 : (sc r b).k ≠ 0 := fun h => hb (by rw [← cast_cast_int b]; simp only [sc] at h; rw [h]; simp)
    obtain ⟨hq, hi, -⟩ := C19_div r hr h2 _ _ (canon_sc r a) (canon_sc r b)
    obtain ⟨q, h1, h3, h4⟩ := hq h0
    obtain ⟨i, h5, h6, h7⟩ := hi h0
    rw [of_canon r h3] at h1 h4
    rw [of_canon r h6] at h5 h7
    rw [(ops_sc r _ _).2.2.1, R.ok.injEq, sc_inj] at h4
    rw [(ops_sc r _ _).2.2.1, new_sc, R.ok.injEq, sc_inj] at h7
    rw [h1, h5, eq_div_of_mul_eq hb h4, eq_inv_of_mul_eq_one_left (h7.trans (by simp))]
    exact ⟨rfl, rfl⟩

/-- C123, scalars. There are the binary digits, the fixed-length big-endian bytes and the decimal text of the residues, such that every client, whatever
it computes and observes, has with the library the outcome it has with the integers modulo `r`. -/
theorem _root_.Redox.Props.C123_scalars (h2 : r ≠ 2) (hb : Big.bits r < usizeMod) :
    ∃ (bits : ZMod r → List Bool) (bytes text : ZMod r → List Byte),
      (∀ a, (bits a).foldr (fun b v => b.toNat + 2 * v) 0 = a.val ∧ (a ≠ 0 → (bits a).getLast? = some true)) ∧
      (∀ a, (bytes a).length = (Big.bits r + 7) / 8 ∧ bigEndian (bytes a) = a.val) ∧
      (∀ a, decimalValue (text a) = a.val ∧ ∀ b ∈ text a, 48 ≤ b.toNat ∧ b.toNat ≤ 57) ∧
      ∀ (prof : Profile) (α : Type) (cl : ScalarClient α) (s : ℕ → Scalar), (∀ i, CanonScalar r (s i)) →
        cl.run (scalarApi prof r) s = cl.run (residueApi prof r bits bytes text) fun i => ((s i).k : ZMod r) := by
  have hr : r.Prime := Fact.out
  have hk : ∀ a : ZMod r, sc r a = ⟨(a.val : ℤ), r⟩ := fun a => by rw [sc, cast_eq_val]
  choose bits hbits hget hnil hlast hfold using fun a : ZMod r => C20_iter_rl a.val r
  choose bytes hbe hle hlen hval hrest using fun a : ZMod r => C21_serialize r hr.one_le (sc r a) (canon_sc r a)
  have hdown : ∀ prof (a : ZMod r), (sc r a).iterLR prof = if prof = .debug ∧ a = 0 then R.panic .overflow else R.ok (bits a).reverse := by
    intro prof a
    by_cases ha : a = 0
    · subst ha
      have h0 : sc r 0 = ⟨0, r⟩ := by simp [sc]
      have hn : bits 0 = [] := (hnil 0).2 ZMod.val_zero
      rw [h0]
      cases prof
      · simpa using (C20_refuted_zero r).1
      · simpa [hn] using (C20_refuted_zero r).2
    · have hv : a.val ≠ 0 := fun h => ha ((ZMod.val_eq_zero a).1 h)
      obtain ⟨bs, h1, h2⟩ := C20_iter_lr_partial prof a.val r hv (lt_of_le_of_lt (Big.bits_mono (ZMod.val_lt a).le) hb)
      rw [hbits, R.ok.injEq] at h1
      subst h1
      rw [hk, h2, if_neg (by tauto)]
  refine ⟨bits, bytes, fun a => Big.showNat a.val, fun a => ⟨hfold a, fun ha => hlast a fun h => ha ((ZMod.val_eq_zero a).1 h)⟩, fun a => ⟨hlen a, ?_⟩,
    fun a => ⟨decimal_showNat _, fun b hb => showNat_digit _ b hb⟩, ?_⟩
  · have := hval a
    simp only [sc, cast_eq_val] at this
    exact_mod_cast this
  intro prof α cl s hc
  obtain ⟨ρ, rfl⟩ : ∃ ρ : ℕ → ZMod r, s = sc r ∘ ρ := ⟨fun i => ((s i).k : ZMod r), funext fun i => of_canon r (hc i)⟩
  have hρ : (fun i => (((sc r ∘ ρ) i).k : ZMod r)) = ρ := funext fun i => cast_cast_int _
  rw [hρ]
  refine run_sameS (g := sc r) ?_ cl ρ
  have hup : ∀ a : ZMod r, (sc r a).iterRL = R.ok (bits a) := fun a => by rw [hk, hbits]
  have htext : ∀ a : ZMod r, (sc r a).display = Big.showNat a.val := fun a => by
    rw [Scalar.display, sc, showInt_el]
  have heq : ∀ a b : ZMod r, (sc r a == sc r b) = decide (a = b) := fun a b => by
    rw [Bool.eq_iff_iff, beq_iff_eq, decide_eq_true_iff, sc_inj]
  constructor <;> intros <;> simp only [scalarApi, residueApi, new_sc, (ops_sc r _ _).1, (ops_sc r _ _).2.1, (ops_sc r _ _).2.2.1, (ops_sc r _ 0).2.2.2,
    (div_sc r h2 _ _).1, (div_sc r h2 0 _).2, heq, hup, hdown, hbe, hle, htext, R.ok_bind] <;> congr

end

end Redox.Props.ScalarClientProps
