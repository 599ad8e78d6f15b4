import Verif.Model.Memory
import Verif.Props.Cache

/-!
# C81: the memory of a field
-/

namespace Redox.Props.Mem

/-- The number of handles the program owns after a history, starting with `n`; `none` if it used a handle while it owned none, which a
Rust program cannot do. -/
def owned (n : ℕ) : List FieldOp → Option ℕ
  | [] => some n
  | o :: os =>
    if n = 0 then none
    else match o with
      | .clone => owned (n + 1) os
      | .drop => owned (n - 1) os
      | .sqrt => owned n os

/-- The handles inside the cache. -/
def inside (c : FieldAlloc) : ℕ := match c.slot with
  | none => 0
  | some v => v.handles

/-- The invariant: the count is the number of handles outside and inside, and the allocation is freed when it is zero. -/
structure AllocOK (f : Fp) (c : FieldAlloc) (n : ℕ) : Prop where
  count : c.strong = n + inside c
  freed : c.freed = decide (c.strong = 0)
  slot : ∀ v, c.slot = some v → f.calcSqrtPrecmp = R.ok v

theorem dec_lt (c : FieldAlloc) : ∀ k, k < c.strong → c.dec k = { c with strong := c.strong - k }
  | 0, _ => rfl
  | k + 1, h => by
    have h1 : c.dec1 = { c with strong := c.strong - 1 } := by rw [FieldAlloc.dec1, if_neg (by omega)]
    have h2 := dec_lt c.dec1 k (by rw [h1]; simp only; omega)
    rw [FieldAlloc.dec, h2, h1]
    simp only [FieldAlloc.mk.injEq, and_true]
    omega

/-- What a square root leaves behind. -/
theorem sqrt_eq {f : Fp} {c : FieldAlloc} {n : ℕ} (h : AllocOK f c n) (hn : n ≠ 0) :
    c.sqrt f = match f.calcSqrtPrecmp with
      | .panic _ => c
      | .ok v => ⟨n + v.handles, some v, c.freed⟩ := by
  unfold FieldAlloc.sqrt
  cases hv : f.calcSqrtPrecmp with
  | panic e => rfl
  | ok v =>
    simp only
    have hc := h.count
    rcases hs : c.slot with _ | w
    · simp only [inside, hs] at hc
      simp only [FieldAlloc.getOrInsert, FieldAlloc.inc, hs]
      rw [dec_lt _ _ (by simp only; omega)]
      simp only [FieldAlloc.mk.injEq, and_true]
      omega
    · have hw := h.slot w hs
      rw [hv, R.ok.injEq] at hw
      subst hw
      simp only [inside, hs] at hc
      simp only [FieldAlloc.getOrInsert, FieldAlloc.inc, hs]
      have h1 : (FieldAlloc.mk (c.strong + v.handles) (some v) c.freed).dec v.handles = ⟨c.strong, some v, c.freed⟩ := by
        rw [dec_lt _ _ (by simp only; omega)]
        simp
      rw [h1, dec_lt _ _ (by simp only; omega)]
      simp only [FieldAlloc.mk.injEq, and_true]
      omega

theorem inside_le (c : FieldAlloc) : inside c ≤ 1 := by
  unfold inside
  rcases c.slot with _ | v
  · simp
  · cases v <;> simp [SqrtPrecmp.handles]

/-- Which fields keep a handle of themselves in the cache. -/
theorem calc_handles (p : ℕ) (v : SqrtPrecmp) (h : Fp.calcSqrtPrecmp ⟨p⟩ = R.ok v) : v.handles = if p % 8 = 5 then 1 else 0 := by
  unfold Fp.calcSqrtPrecmp at h
  simp only at h
  split_ifs at h with h1 h2 h3
  · simp only [R.pure_eq, R.ok.injEq] at h
    subst h
    rw [if_neg (by omega)]; rfl
  · rw [if_pos (by omega)]
    obtain ⟨_, -, h⟩ := R.bind_eq_ok.1 h
    obtain ⟨_, -, h⟩ := R.bind_eq_ok.1 h
    obtain ⟨_, -, h⟩ := R.bind_eq_ok.1 h
    obtain ⟨_, -, h⟩ := R.bind_eq_ok.1 h
    obtain ⟨_, -, h⟩ := R.bind_eq_ok.1 h
    obtain ⟨_, -, h⟩ := R.bind_eq_ok.1 h
    simp only [R.pure_eq, R.ok.injEq] at h
    subst h; rfl
  · simp only [R.pure_eq, R.ok.injEq] at h
    subst h
    rw [if_neg (by omega)]; rfl
  · simp only [R.pure_eq, R.ok.injEq] at h
    subst h
    rw [if_neg (by omega)]; rfl

/-- One operation: the invariant and the handles inside. -/
theorem step {p : ℕ} {c : FieldAlloc} {n : ℕ} (h : AllocOK ⟨p⟩ c n) (hn : n ≠ 0) (o : FieldOp) :
    AllocOK ⟨p⟩ (o.apply ⟨p⟩ c) (match o with | .clone => n + 1 | .drop => n - 1 | .sqrt => n) ∧
    inside (o.apply ⟨p⟩ c) = if p % 8 = 5 ∧ o = .sqrt then 1 else inside c := by
  have hc := h.count
  have hf := h.freed
  cases o with
  | clone =>
    refine ⟨⟨by simp only [FieldOp.apply, FieldAlloc.inc, inside]; simp only [inside] at hc; omega, ?_, h.slot⟩, ?_⟩
    · simp only [FieldOp.apply, FieldAlloc.inc, hf]
      rw [decide_eq_decide]; omega
    · simp [FieldOp.apply, FieldAlloc.inc, inside]
  | drop =>
    simp only [FieldOp.apply, FieldAlloc.dec, FieldAlloc.dec1]
    split_ifs with h1 h2 h2
    · exact absurd h2.2 (by decide)
    · refine ⟨⟨by simp only [inside]; omega, by simp, by simp⟩, ?_⟩
      simp only [inside]
      simp only [inside] at hc
      omega
    · exact absurd h2.2 (by decide)
    · refine ⟨⟨by simp only [inside]; simp only [inside] at hc; omega, ?_, h.slot⟩, rfl⟩
      simp only [hf]
      rw [decide_eq_decide]; omega
  | sqrt =>
    simp only [FieldOp.apply]
    rw [sqrt_eq h hn]
    cases hv : Fp.calcSqrtPrecmp ⟨p⟩ with
    | panic e =>
      refine ⟨h, ?_⟩
      rw [if_neg]
      rintro ⟨h5, -⟩
      obtain ⟨v, hv'⟩ := calcSqrtPrecmp_total p (by omega)
      rw [hv] at hv'
      exact absurd hv' (by simp)
    | ok v =>
      refine ⟨⟨by simp only [inside], ?_, by simp only [Option.some.injEq]; rintro w rfl; exact hv⟩, ?_⟩
      · simp only [hf]
        rw [decide_eq_decide]; omega
      · simp only [inside, and_true]
        rw [calc_handles p v hv]
        split_ifs with h5
        · rfl
        · rcases hs : c.slot with _ | w
          · rfl
          · have := calc_handles p w (h.slot w hs)
            rw [if_neg h5] at this
            exact this.symm

theorem run {p : ℕ} : ∀ (os : List FieldOp) {c : FieldAlloc} {n k : ℕ}, AllocOK ⟨p⟩ c n → owned n os = some k →
    AllocOK ⟨p⟩ (c.run ⟨p⟩ os) k ∧ inside (c.run ⟨p⟩ os) = if p % 8 = 5 ∧ .sqrt ∈ os then 1 else inside c
  | [], c, n, k, h, ho => by
    simp only [owned, Option.some.injEq] at ho
    exact ⟨ho ▸ h, by simp [FieldAlloc.run]⟩
  | o :: os, c, n, k, h, ho => by
    have hn : n ≠ 0 := by
      rintro rfl
      simp [owned] at ho
    obtain ⟨hs, hi⟩ := step h hn o
    have key : ∀ m, AllocOK ⟨p⟩ (o.apply ⟨p⟩ c) m → owned m os = some k →
        AllocOK ⟨p⟩ (c.run ⟨p⟩ (o :: os)) k ∧ inside (c.run ⟨p⟩ (o :: os)) = if p % 8 = 5 ∧ .sqrt ∈ o :: os then 1 else inside c := by
      intro m hm hom
      obtain ⟨h1, h2⟩ := run os hm hom
      refine ⟨h1, ?_⟩
      rw [FieldAlloc.run, h2, hi]
      by_cases h5 : p % 8 = 5 <;> by_cases hso : o = .sqrt <;> by_cases hmem : FieldOp.sqrt ∈ os <;>
        simp [h5, hso, hmem, List.mem_cons, eq_comm (a := FieldOp.sqrt)]
    cases o <;> simp only [owned, if_neg hn] at ho <;> exact key _ hs ho

theorem new_ok (f : Fp) : AllocOK f FieldAlloc.new 1 := ⟨rfl, rfl, by simp [FieldAlloc.new]⟩

/-- Exactly when the memory has been given back. -/
theorem freed_iff (p : ℕ) (os : List FieldOp) (k : ℕ) (h : owned 1 os = some k) :
    (FieldAlloc.new.run ⟨p⟩ os).freed = decide (k = 0 ∧ ¬ (p % 8 = 5 ∧ .sqrt ∈ os)) := by
  obtain ⟨h1, h2⟩ := run os (new_ok ⟨p⟩) h
  have h3 := h1.count
  rw [h1.freed, decide_eq_decide, h3, h2]
  split_ifs with h5
  · simp [h5]
  · simp [h5, inside, FieldAlloc.new]

/-- C81: while the program owns a handle the memory is not freed. -/
theorem _root_.Redox.Props.C81_alive (p : ℕ) (os : List FieldOp) (k : ℕ) (h : owned 1 os = some k) (hk : k ≠ 0) :
    (FieldAlloc.new.run ⟨p⟩ os).freed = false := by
  rw [freed_iff p os k h]; simp [hk]

/-- C81, partial: once the program has dropped all its handles the memory is freed, if the modulus is not 5 modulo 8 or no square root was
taken. Missing: square roots in fields with modulus 5 modulo 8 (`C81_refuted`). -/
theorem _root_.Redox.Props.C81_freed_partial (p : ℕ) (os : List FieldOp) (h : owned 1 os = some 0)
    (hp : p % 8 ≠ 5 ∨ .sqrt ∉ os) : (FieldAlloc.new.run ⟨p⟩ os).freed = true := by
  rw [freed_iff p os 0 h]
  rcases hp with h | h <;> simp [h]

/-- C81 does not hold for moduli that are 5 modulo 8, such as that of edwards25519: after one square root the cache owns a handle of the field it
belongs to, and whatever the program does afterwards the memory is never freed. -/
theorem _root_.Redox.Props.C81_refuted (p : ℕ) (hp : p % 8 = 5) (os : List FieldOp) (k : ℕ) (h : owned 1 os = some k)
    (hs : .sqrt ∈ os) : (FieldAlloc.new.run ⟨p⟩ os).freed = false := by
  rw [freed_iff p os k h]; simp [hp, hs]

/-- Histories with no handle left at the end exist, with and without square roots, and `2^255 - 19` is 5 modulo 8. -/
example : owned 1 [.clone, .sqrt, .clone, .drop, .drop, .drop] = some 0 ∧ owned 1 [.clone, .drop, .drop] = some 0 ∧
    (2 ^ 255 - 19) % 8 = 5 ∧ (2 ^ 127 - 1) % 8 ≠ 5 ∧ owned 1 [.drop, .clone] = none := by decide

end Redox.Props.Mem
