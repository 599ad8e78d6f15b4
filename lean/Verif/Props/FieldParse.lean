import Verif.Proofs.FpLink
import Verif.Proofs.Bytes

/-!
# C12: parsing and printing field elements
-/

namespace Redox.Props

open Spec

/-! Specification: what a numeric literal is and which integer it denotes. -/

/-- ASCII character of a digit below 16, upper or lower case. -/
def digitChar (d : ℕ × Bool) : Byte :=
  if d.1 < 10 then UInt8.ofNat (48 + d.1) else if d.2 then UInt8.ofNat (55 + d.1) else UInt8.ofNat (87 + d.1)

/-- Value of a list of digits, most significant first. -/
def litValue (radix : ℕ) (ds : List (ℕ × Bool)) : ℕ := ds.foldl (fun acc d => acc * radix + d.1) 0

/-- The four literal forms of `FromFactory<&str>`: radix and prefix. -/
def literalForms : List (ℕ × List Byte) :=
  [(10, []), (16, ascii! "0x"), (8, ascii! "0o"), (2, ascii! "0b")]

/-- Text of a literal: optional minus, prefix, digits. -/
def literal (neg : Bool) (pre : List Byte) (ds : List (ℕ × Bool)) : List Byte :=
  (if neg then ascii! "-" else []) ++ pre ++ ds.map digitChar

theorem digitVal_digitChar (d : ℕ × Bool) (h : d.1 < 16) : Big.digitVal (digitChar d) = d.1 := by
  obtain ⟨d, u⟩ := d
  simp only at h
  interval_cases d <;> cases u <;> decide

theorem digitChar_props (d : ℕ × Bool) (h : d.1 < 16) :
    digitChar d ≠ 95 ∧ digitChar d ≠ 43 ∧ digitChar d ≠ 45 ∧ digitChar d ≠ 120 ∧ digitChar d ≠ 111 ∧
    (digitChar d).toNat / 64 ≠ 2 := by
  obtain ⟨d, u⟩ := d
  simp only at h
  interval_cases d <;> cases u <;> decide

theorem digitChar_ne_b (d : ℕ × Bool) (h : d.1 < 10) : digitChar d ≠ 98 := by
  obtain ⟨d, u⟩ := d
  simp only at h
  interval_cases d <;> cases u <;> decide

theorem parseDigits_map (radix : ℕ) (hr : radix ≤ 16) : ∀ (ds : List (ℕ × Bool)) (acc : ℕ),
    (∀ d ∈ ds, d.1 < radix) →
    Big.parseDigits radix (ds.map digitChar) acc = some (ds.foldl (fun acc d => acc * radix + d.1) acc)
  | [], acc, _ => by simp [Big.parseDigits]
  | d :: ds, acc, h => by
    have hd : d.1 < radix := h d (by simp)
    have hp := digitChar_props d (by omega)
    simp only [List.map_cons, Big.parseDigits, if_neg hp.1, digitVal_digitChar d (by omega), if_pos hd,
      List.foldl_cons]
    exact parseDigits_map radix hr ds _ (fun d hd => h d (by simp [hd]))

theorem parseInt_map (radix : ℕ) (hr : radix ≤ 16) (ds : List (ℕ × Bool)) (hne : ds ≠ [])
    (h : ∀ d ∈ ds, d.1 < radix) :
    Big.parseInt radix (ds.map digitChar) = some (litValue radix ds : ℤ) := by
  obtain ⟨d, ds, rfl⟩ := List.exists_cons_of_ne_nil hne
  have hp := digitChar_props d (by have := h d (by simp); omega)
  have hN : Big.parseNat radix ((d :: ds).map digitChar) = some (litValue radix (d :: ds)) := by
    rw [litValue, ← parseDigits_map radix hr _ _ h]
    rw [List.map_cons] at *
    generalize hc : digitChar d = c at *
    unfold Big.parseNat
    split
    · rename_i heq; simp only [List.cons.injEq] at heq; exact absurd heq.1 hp.2.1
    · dsimp only
      split
      · rename_i heq2; cases heq2
      · rename_i heq2; simp only [List.cons.injEq] at heq2; exact absurd heq2.1 hp.1
      · rfl
  unfold Big.parseInt
  split
  · rename_i heq; simp only [List.map_cons, List.cons.injEq] at heq; exact absurd heq.1 hp.2.2.1
  · rw [hN]; rfl

/-- What `fromStr` does after the sign has been removed, for one literal form. -/
theorem fromStr_body (ds : List (ℕ × Bool)) (hne : ds ≠ []) (form : ℕ × List Byte)
    (hf : form ∈ literalForms) (h : ∀ d ∈ ds, d.1 < form.1) (k : ℕ × List Byte → R FpElt) :
    (if 1 < (form.2 ++ ds.map digitChar).length then do
        strBoundary (form.2 ++ ds.map digitChar) 2
        if (form.2 ++ ds.map digitChar).take 2 = ascii! "0o" then pure (8, (form.2 ++ ds.map digitChar).drop 2) >>= k
        else if (form.2 ++ ds.map digitChar).take 2 = ascii! "0x" then pure (16, (form.2 ++ ds.map digitChar).drop 2) >>= k
        else if (form.2 ++ ds.map digitChar).take 2 = ascii! "0b" then pure (2, (form.2 ++ ds.map digitChar).drop 2) >>= k
        else pure (10, form.2 ++ ds.map digitChar) >>= k
      else pure (10, form.2 ++ ds.map digitChar) >>= k : R FpElt) = k (form.1, ds.map digitChar) := by
  have hb : ∀ (l : List Byte), (∀ b, l[2]? = some b → b.toNat / 64 ≠ 2) → 2 ≤ l.length →
      strBoundary l 2 = R.ok () := by
    intro l hl h2
    unfold strBoundary
    rw [if_neg (by omega)]
    split
    · rename_i b hb; rw [if_neg (hl b hb)]
    · rfl
  simp only [literalForms, List.mem_cons, List.not_mem_nil, or_false] at hf
  rcases hf with rfl | rfl | rfl | rfl
  · simp only [List.nil_append] at h ⊢
    by_cases hlen : 1 < (ds.map digitChar).length
    · rw [if_pos hlen]
      have hbnd : strBoundary (ds.map digitChar) 2 = R.ok () := by
        refine hb _ (fun b hb' => ?_) (by omega)
        rw [List.getElem?_map] at hb'
        cases hd : ds[2]? with
        | none => rw [hd] at hb'; cases hb'
        | some d =>
          rw [hd] at hb'; simp only [Option.map_some, Option.some.injEq] at hb'
          have := h d (List.mem_of_getElem? hd)
          rw [← hb']; exact (digitChar_props d (by omega)).2.2.2.2.2
      rw [hbnd, R.ok_bind]
      match ds, hlen with
      | d0 :: d1 :: ds, _ =>
        have h1 := h d1 (by simp)
        have hp := digitChar_props d1 (by omega)
        have hb' := digitChar_ne_b d1 (by omega)
        simp [hp.2.2.2.1, hp.2.2.2.2.1, hb']
    · rw [if_neg hlen]; rfl
  all_goals
    obtain ⟨d, ds, rfl⟩ := List.exists_cons_of_ne_nil hne
    have hd := h d (by simp)
    have hp := digitChar_props d (by simp only at hd; omega)
    rw [if_pos (by simp), hb _ (by
      intro b hb'; simp only [List.map_cons, List.cons_append, List.nil_append, List.getElem?_cons_succ,
        List.getElem?_cons_zero, Option.some.injEq] at hb'
      rw [← hb']; exact hp.2.2.2.2.2) (by simp), R.ok_bind]
    simp

/-- C12. Every literal in the four forms, with or without leading minus, any number of digits (at least one), either
letter case, parses to the field element of the integer it denotes. -/
theorem C12_parse (p : ℕ) (hp : 1 ≤ p) (neg : Bool) (form : ℕ × List Byte) (hf : form ∈ literalForms)
    (ds : List (ℕ × Bool)) (hne : ds ≠ []) (hd : ∀ d ∈ ds, d.1 < form.1) :
    (Fp.new p).fromStr (literal neg form.2 ds) =
      (Fp.new p).elt (if neg then -(litValue form.1 ds : ℤ) else litValue form.1 ds) := by
  have hr : form.1 ≤ 16 := by
    simp only [literalForms, List.mem_cons, List.not_mem_nil, or_false] at hf
    rcases hf with rfl | rfl | rfl | rfl <;> simp
  have hbody := fromStr_body ds hne form hf hd
  have hparse := parseInt_map form.1 hr ds hne hd
  have hnotneg : (form.2 ++ ds.map digitChar).head? ≠ some 45 := by
    obtain ⟨d, ds, rfl⟩ := List.exists_cons_of_ne_nil hne
    have hp := digitChar_props d (by have := hd d (by simp); omega)
    simp only [literalForms, List.mem_cons, List.not_mem_nil, or_false] at hf
    rcases hf with rfl | rfl | rfl | rfl
    · simp [hp.2.2.1]
    all_goals simp
  have hnonempty : form.2 ++ ds.map digitChar ≠ [] := by simp [hne]
  cases neg
  · simp only [literal, Bool.false_eq_true, if_false, List.nil_append]
    rw [Fp.fromStr, if_neg hnonempty]
    simp only [if_neg hnotneg]
    rw [hbody]
    simp [hparse]
  · simp only [literal, if_true, List.cons_append, List.nil_append]
    rw [Fp.fromStr, if_neg (by simp)]
    simp only [List.head?_cons, if_true, List.drop_succ_cons, List.drop_zero]
    rw [hbody]
    simp [hparse]

/-- C12, empty string. -/
theorem C12_empty (p : ℕ) : (Fp.new p).fromStr [] = (Fp.new p).zero := by
  simp [Fp.fromStr]

theorem showNat_literal (n : ℕ) : ∃ ds : List (ℕ × Bool), ds ≠ [] ∧ (∀ d ∈ ds, d.1 < 10) ∧
    litValue 10 ds = n ∧ Big.showNat n = ds.map digitChar := by
  by_cases hn : n = 0
  · subst hn; exact ⟨[(0, false)], by simp, by simp, rfl, by decide⟩
  · refine ⟨((Big.digits 10 (Big.bits n) n).map (fun d => (d, false))).reverse, ?_, ?_, ?_, ?_⟩
    · simp only [ne_eq, List.reverse_eq_nil_iff, List.map_eq_nil_iff]
      intro h
      have := Big.ofDigits_digits 10 (by omega) (Big.bits n) n (Big.lt_pow_bits 10 n (by omega))
      rw [h] at this
      exact hn this.symm
    · intro d hd
      simp only [List.mem_reverse, List.mem_map] at hd
      obtain ⟨a, ha, rfl⟩ := hd
      exact Big.digits_lt 10 (by omega) _ _ a ha
    · rw [litValue, List.foldl_reverse, List.foldr_map]
      conv_rhs => rw [← Big.ofDigits_digits 10 (by omega) (Big.bits n) n (Big.lt_pow_bits 10 n (by omega))]
      generalize Big.digits 10 (Big.bits n) n = ds
      induction ds with
      | nil => rfl
      | cons d ds ih => simp only [List.foldr_cons, ih, Big.ofDigits]; ring
    · rw [Big.showNat, if_neg hn, List.map_reverse, List.map_map]
      congr 1
      apply List.map_congr_left
      intro d hd
      have := Big.digits_lt 10 (by omega) _ _ d hd
      simp [digitChar, this]

/-- C12, round trip: what `Display` prints for an element parses back to it; so printing is injective. -/
theorem C12_display_parse (p : ℕ) (hp : 1 ≤ p) (x : FpElt) (hx : Canon p x) :
    ∃ s, x.display = R.ok s ∧ (Fp.new p).fromStr s = R.ok x := by
  haveI : NeZero p := ⟨by omega⟩
  obtain ⟨z, rfl⟩ := canon_iff.1 hx
  refine ⟨Big.showInt (z.cast : ℤ), by simp [FpElt.display, modFloor_eq], ?_⟩
  obtain ⟨ds, hne, hd, hv, hs⟩ := showNat_literal (z.cast : ℤ).natAbs
  have h0 := cast_nonneg z
  rw [Big.showInt, if_neg (by omega), hs]
  have := C12_parse p hp false (10, []) (by simp [literalForms]) ds hne hd
  simp only [literal, Bool.false_eq_true, if_false, List.nil_append] at this
  rw [this, hv, Int.natAbs_of_nonneg h0, Fp.new, elt_eq]
  simp

/-- The same for every integer literal printed in decimal. -/
theorem C12_decimal (p : ℕ) (hp : 1 ≤ p) (z : ℤ) : (Fp.new p).fromStr (Big.showInt z) = (Fp.new p).elt z := by
  obtain ⟨ds, hne, hd, hv, hs⟩ := showNat_literal z.natAbs
  rw [Big.showInt, hs]
  split_ifs with h
  · have := C12_parse p hp true (10, []) (by simp [literalForms]) ds hne hd
    simp only [literal, if_true, List.nil_append, List.cons_append, hv] at this
    rw [this]; congr 1; omega
  · have := C12_parse p hp false (10, []) (by simp [literalForms]) ds hne hd
    simp only [literal, Bool.false_eq_true, if_false, List.nil_append, hv] at this
    rw [this]; congr 1; omega

example : literal true (ascii! "0x") [(1, false), (10, true), (15, false)] = ascii! "-0x1Af" ∧
    litValue 16 [(1, false), (10, true), (15, false)] = 0x1AF ∧
    (Fp.new 1009).fromStr (ascii! "-0x1Af") = R.ok ⟨578, ⟨1009⟩⟩ ∧
    (FpElt.mk 578 ⟨1009⟩).display = R.ok (ascii! "578") := by
  refine ⟨?_, ?_, ?_, ?_⟩ <;> decide +kernel

end Redox.Props
