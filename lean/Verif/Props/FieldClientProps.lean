import Verif.Spec.FieldClient
import Verif.Proofs.SqrtLink
import Verif.Props.FieldArith
import Verif.Props.FieldHistory
import Verif.Props.FieldBytes
import Verif.Props.DisplayProps

/-!
# C123: a client cannot tell a prime field of the library from the integers modulo `p`
-/

namespace Redox.Props.FieldClientProps

open Spec

theorem decimal_showNat (n : ℕ) : decimalValue (Big.showNat n) = n := by
  obtain ⟨ds, -, hd, hv, hs⟩ := showNat_literal n
  have key : ∀ (ds : List (ℕ × Bool)) (v : ℕ), (∀ d ∈ ds, d.1 < 10) →
      (ds.map digitChar).foldl (fun v b => 10 * v + (b.toNat - 48)) v = ds.foldl (fun acc d => acc * 10 + d.1) v := by
    intro ds
    induction ds with
    | nil => intros; rfl
    | cons d ds ih =>
      intro v h
      have h1 : (digitChar d).toNat - 48 = d.1 := by
        obtain ⟨d, u⟩ := d
        have : d < 10 := h (d, u) (by simp)
        interval_cases d <;> cases u <;> decide
      rw [List.map_cons, List.foldl_cons, List.foldl_cons, h1, ih _ fun d hd => h d (by simp [hd]), mul_comm 10]
  rw [decimalValue, hs, key ds 0 hd, ← hv]
  rfl

theorem showInt_el {p : ℕ} [NeZero p] (z : ZMod p) : Big.showInt (z.cast : ℤ) = Big.showNat z.val := by
  rw [Big.showInt, if_neg (by have := cast_nonneg z; omega), cast_eq_val, Int.natAbs_natCast]

/-- `A` computes with the images under `g` what `B` computes, and makes the same observations. -/
structure Same {K L : Type} (g : L → K) (A : FieldApi K) (B : FieldApi L) : Prop where
  ofInt : ∀ n, A.ofInt n = B.ofInt n >>= fun v => R.ok (g v)
  ofText : ∀ bs, A.ofText bs = B.ofText bs >>= fun v => R.ok (g v)
  ofBytesBE : ∀ bs, A.ofBytesBE bs = B.ofBytesBE bs >>= fun v => R.ok (g v)
  ofBytesLE : ∀ bs, A.ofBytesLE bs = B.ofBytesLE bs >>= fun v => R.ok (g v)
  add : ∀ a b, A.add (g a) (g b) = B.add a b >>= fun v => R.ok (g v)
  sub : ∀ a b, A.sub (g a) (g b) = B.sub a b >>= fun v => R.ok (g v)
  mul : ∀ a b, A.mul (g a) (g b) = B.mul a b >>= fun v => R.ok (g v)
  div : ∀ a b, A.div (g a) (g b) = B.div a b >>= fun v => R.ok (g v)
  neg : ∀ a, A.neg (g a) = B.neg a >>= fun v => R.ok (g v)
  inv : ∀ a, A.inv (g a) = B.inv a >>= fun v => R.ok (g v)
  sqrt : ∀ a, A.sqrt (g a) = B.sqrt a >>= fun v => R.ok (g v)
  pow : ∀ a n, A.pow (g a) n = B.pow a n >>= fun v => R.ok (g v)
  powInt : ∀ a n, A.powInt (g a) n = B.powInt a n >>= fun v => R.ok (g v)
  select : ∀ a b c, A.select (g a) (g b) c = g (B.select a b c)
  eq : ∀ a b, A.eq (g a) (g b) = B.eq a b
  isZero : ∀ a, A.isZero (g a) = B.isZero a
  isOne : ∀ a, A.isOne (g a) = B.isOne a
  isSquare : ∀ a, A.isSquare (g a) = B.isSquare a
  sgn0 : ∀ a, A.sgn0 (g a) = B.sgn0 a
  bytesBE : ∀ a, A.bytesBE (g a) = B.bytesBE a
  bytesLE : ∀ a, A.bytesLE (g a) = B.bytesLE a
  text : ∀ a, A.text (g a) = B.text a

/-- Such an `A` cannot be told from `B`. -/
theorem run_same {K L α : Type} {g : L → K} {A : FieldApi K} {B : FieldApi L} (H : Same g A B) (cl : FieldClient α) (ρ : ℕ → L) :
    cl.run A (g ∘ ρ) = cl.run B ρ := by
  have step : ∀ (r : R L) (i : ℕ) (k : FieldClient α) (ρ : ℕ → L), (∀ ρ, k.run A (g ∘ ρ) = k.run B ρ) →
      ((r >>= fun v => R.ok (g v)) >>= fun x => k.run A (Function.update (g ∘ ρ) i x)) = r >>= fun v => k.run B (Function.update ρ i v) := by
    intro r i k ρ ih
    rcases r with v | f
    · simp only [R.ok_bind, ← Function.comp_update]
      exact ih _
    · rfl
  induction cl generalizing ρ with
  | done x => rfl
  | ofInt i n k ih => simp only [FieldClient.run, H.ofInt]; exact step _ i k ρ ih
  | ofText i bs k ih => simp only [FieldClient.run, H.ofText]; exact step _ i k ρ ih
  | ofBytesBE i bs k ih => simp only [FieldClient.run, H.ofBytesBE]; exact step _ i k ρ ih
  | ofBytesLE i bs k ih => simp only [FieldClient.run, H.ofBytesLE]; exact step _ i k ρ ih
  | add i a b k ih => simp only [FieldClient.run, Function.comp_apply, H.add]; exact step _ i k ρ ih
  | sub i a b k ih => simp only [FieldClient.run, Function.comp_apply, H.sub]; exact step _ i k ρ ih
  | mul i a b k ih => simp only [FieldClient.run, Function.comp_apply, H.mul]; exact step _ i k ρ ih
  | div i a b k ih => simp only [FieldClient.run, Function.comp_apply, H.div]; exact step _ i k ρ ih
  | neg i a k ih => simp only [FieldClient.run, Function.comp_apply, H.neg]; exact step _ i k ρ ih
  | inv i a k ih => simp only [FieldClient.run, Function.comp_apply, H.inv]; exact step _ i k ρ ih
  | sqrt i a k ih => simp only [FieldClient.run, Function.comp_apply, H.sqrt]; exact step _ i k ρ ih
  | pow i a n k ih => simp only [FieldClient.run, Function.comp_apply, H.pow]; exact step _ i k ρ ih
  | powInt i a n k ih => simp only [FieldClient.run, Function.comp_apply, H.powInt]; exact step _ i k ρ ih
  | select i a b c k ih => simp only [FieldClient.run, Function.comp_apply, H.select, ← Function.comp_update]; exact ih _
  | eq a b k ih => simp only [FieldClient.run, Function.comp_apply, H.eq, ih]
  | isZero a k ih => simp only [FieldClient.run, Function.comp_apply, H.isZero, ih]
  | isOne a k ih => simp only [FieldClient.run, Function.comp_apply, H.isOne, ih]
  | isSquare a k ih => simp only [FieldClient.run, Function.comp_apply, H.isSquare, ih]
  | sgn0 a k ih => simp only [FieldClient.run, Function.comp_apply, H.sgn0, ih]
  | bytesBE a k ih => simp only [FieldClient.run, Function.comp_apply, H.bytesBE, ih]
  | bytesLE a k ih => simp only [FieldClient.run, Function.comp_apply, H.bytesLE, ih]
  | text a k ih => simp only [FieldClient.run, Function.comp_apply, H.text, ih]

section
variable (p : ℕ) [Fact p.Prime]

/-- C123. There are a choice of square roots, the fixed-length big-endian bytes and the decimal text of the residues, and a reading of texts that is right for literals (C12), such that every client, whatever
it computes and observes, has with the library the outcome it has with the integers modulo `p`. -/
theorem _root_.Redox.Props.C123_prime_field (hs : p % 4 = 3 ∨ p % 8 = 5) :
    ∃ (root : ZMod p → ZMod p) (bytes text : ZMod p → List Byte) (parse : List Byte → R (ZMod p)),
      (∀ a, IsSquare a → root a * root a = a) ∧
      (∀ a, (bytes a).length = (Fp.new p).sizeBytes ∧ bigEndian (bytes a) = a.val) ∧
      (∀ a, decimalValue (text a) = a.val ∧ ∀ b ∈ text a, 48 ≤ b.toNat ∧ b.toNat ≤ 57) ∧
      (∀ neg form ds, form ∈ literalForms → ds ≠ [] → (∀ d ∈ ds, d.1 < form.1) →
        parse (literal neg form.2 ds) = R.ok (if neg then -(litValue form.1 ds : ZMod p) else litValue form.1 ds)) ∧
      ∀ (α : Type) (cl : FieldClient α) (s : ℕ → FpElt), (∀ i, Canon p (s i)) →
        cl.run (fpApi (Fp.new p)) s = cl.run (zmodApi p root bytes text parse) fun i => val p (s i) := by
  haveI : Fact (2 < p) := ⟨by rcases hs with h | h <;> omega⟩
  have h1 : 1 ≤ p := (Fact.out : p.Prime).one_le
  choose bytes hb hlen hval hle hrest using fun a : ZMod p => C10_serialize p h1 (el a) (canon_el a)
  refine ⟨sqrtZ, bytes, fun a => Big.showNat a.val, fun s => (Fp.new p).fromStr s >>= fun x => R.ok (val p x), fun a => sqrtZ_sq hs, fun a => ⟨hlen a, ?_⟩,
    fun a => ⟨decimal_showNat _, fun b hb => showNat_digit _ b hb⟩, fun neg form ds hf hne hd => ?_, ?_⟩
  · have := hval a
    rw [el_n, cast_eq_val] at this
    exact_mod_cast this
  · dsimp only
    rw [C12_parse p h1 neg form hf ds hne hd, Fp.new, elt_eq, R.ok_bind, val_el]
    cases neg <;> simp
  intro α cl s hc
  obtain ⟨ρ, rfl⟩ : ∃ ρ : ℕ → ZMod p, s = el ∘ ρ := ⟨fun i => val p (s i), funext fun i => (hc i).eq_el⟩
  clear hc
  have hρ : (fun i => val p ((el ∘ ρ) i)) = ρ := funext fun i => val_el _
  rw [hρ]
  clear hρ
  have hpow : ∀ (a : ZMod p) (n : ℤ), (el a).powInt n = R.ok (el (if a = 0 then (if (p : ℤ) - 1 ∣ n then 1 else 0) else a ^ n)) := by
    intro a n
    by_cases ha : a = 0
    · subst ha
      have := C05_zero_base p (Fact.out : p.Prime).two_le (el 0) (canon_el _) (val_el _) n
      rw [returns_iff] at this
      simpa using this
    · have := C05_pow_int_partial p Fact.out (el a) (canon_el _) n (by rwa [val_el])
      rw [returns_iff, val_el] at this
      simpa [ha] using this
  have hbe : ∀ bs, (Fp.new p).fromBytesBE bs = R.ok (el (bigEndian bs : ZMod p)) := fun bs => by
    rw [Fp.fromBytesBE, Fp.new, elt_eq, ← beValue_eq, Int.cast_natCast]; rfl
  have hleb : ∀ bs, (Fp.new p).fromBytesLE bs = R.ok (el (bigEndian bs.reverse : ZMod p)) := fun bs => by
    rw [(C11_deserialize p h1 bs 0).2.2.1, hbe]
  have hnew : ∀ n, (Fp.new p).elt n = R.ok (el (n : ZMod p)) := elt_eq
  have hstr : ∀ bs, (Fp.new p).fromStr bs = ((Fp.new p).fromStr bs >>= fun x => R.ok (val p x)) >>= fun v => R.ok (el v) := fun bs => by
    rcases h : (Fp.new p).fromStr bs with x | f
    · obtain ⟨n, hn⟩ := fromStr_elt h
      rw [hnew, R.ok.injEq] at hn
      simp only [← hn, R.ok_bind, val_el]
    · rfl
  refine run_same (g := el) ?_ cl ρ
  constructor
  case ofText => exact hstr
  all_goals intros
  all_goals simp only [fpApi, zmodApi, hnew, hbe, hleb, hpow, hb, hle, add_el, sub_el, mul_el, div_el, neg_el, u32Div_el, powNat_el,
    sqrt_el hs, cmov_el, el_beq, isZero_el, isOne_el, isSquare_el, sgn0_el, display_el, showInt_el, R.ok_bind]
  all_goals congr

end

end Redox.Props.FieldClientProps
