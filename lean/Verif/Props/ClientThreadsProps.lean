import Verif.Spec.ClientThreads
import Verif.Props.ThreadsProps
import Verif.Props.FieldClientProps

/-!
# C123 with several threads
-/

namespace Redox.Props.ClientThreads

open Spec Redox.Props.FieldClientProps Redox.Props.Thr

theorem andThen_alone {β α : Type} (r : R β) (k : β → Prog (R α)) : (andThen r k).alone = r >>= fun v => (k v).alone := by
  cases r <;> rfl

/-- Alone and without a cache, the program of a client does what the client does. -/
theorem prog_alone {α : Type} (f : Fp) (j : ℕ) (cl : FieldClient α) (s : ℕ → FpElt) : (cl.prog f j s).alone = cl.run (fpApi f) s := by
  induction cl generalizing s with
  | done x => rfl
  | sqrt i a k ih => simp only [FieldClient.prog, Prog.alone, andThen_alone, ih]; rfl
  | ofInt i n k ih => simp only [FieldClient.prog, FieldClient.run, andThen_alone, ih]
  | ofText i bs k ih => simp only [FieldClient.prog, FieldClient.run, andThen_alone, ih]
  | ofBytesBE i bs k ih => simp only [FieldClient.prog, FieldClient.run, andThen_alone, ih]
  | ofBytesLE i bs k ih => simp only [FieldClient.prog, FieldClient.run, andThen_alone, ih]
  | add i a b k ih => simp only [FieldClient.prog, FieldClient.run, andThen_alone, ih]
  | sub i a b k ih => simp only [FieldClient.prog, FieldClient.run, andThen_alone, ih]
  | mul i a b k ih => simp only [FieldClient.prog, FieldClient.run, andThen_alone, ih]
  | div i a b k ih => simp only [FieldClient.prog, FieldClient.run, andThen_alone, ih]
  | neg i a k ih => simp only [FieldClient.prog, FieldClient.run, andThen_alone, ih]
  | inv i a k ih => simp only [FieldClient.prog, FieldClient.run, andThen_alone, ih]
  | pow i a n k ih => simp only [FieldClient.prog, FieldClient.run, andThen_alone, ih]
  | powInt i a n k ih => simp only [FieldClient.prog, FieldClient.run, andThen_alone, ih]
  | select i a b c k ih => simp only [FieldClient.prog, FieldClient.run, andThen_alone, ih]
  | eq a b k ih => simp only [FieldClient.prog, FieldClient.run, andThen_alone, ih]
  | isZero a k ih => simp only [FieldClient.prog, FieldClient.run, andThen_alone, ih]
  | isOne a k ih => simp only [FieldClient.prog, FieldClient.run, andThen_alone, ih]
  | sgn0 a k ih => simp only [FieldClient.prog, FieldClient.run, andThen_alone, ih]
  | isSquare a k ih => simp only [FieldClient.prog, FieldClient.run, andThen_alone, ih]
  | bytesBE a k ih => simp only [FieldClient.prog, FieldClient.run, andThen_alone, ih]
  | bytesLE a k ih => simp only [FieldClient.prog, FieldClient.run, andThen_alone, ih]
  | text a k ih => simp only [FieldClient.prog, FieldClient.run, andThen_alone, ih]

section
variable {α : Type} {fld : ℕ → Fp} {A : ℕ → Prop}

theorem uses_andThen {β : Type} {r : R β} {k : β → Prog (R α)} (h : ∀ v, r = R.ok v → Uses fld A (k v)) : Uses fld A (andThen r k) := by
  cases r with
  | ok v => exact h v rfl
  | panic e => exact .done _

theorem upd_canon {p : ℕ} {s : ℕ → FpElt} (hs : ∀ i, Canon p (s i)) (i : ℕ) {v : FpElt} (hv : Canon p v) : ∀ l, Canon p (Function.update s i v l) := by
  intro l
  by_cases hl : l = i
  · subst hl; simpa using hv
  · simpa [hl] using hs l

variable (p : ℕ) [Fact p.Prime]

/-- A client only takes square roots of elements of its field. -/
theorem prog_uses (hs : p % 4 = 3 ∨ p % 8 = 5) {j : ℕ} (hA : A j) (hf : fld j = Fp.new p) (cl : FieldClient α) (s : ℕ → FpElt)
    (hc : ∀ i, Canon p (s i)) : Uses fld A (cl.prog (Fp.new p) j s) := by
  have h2 : 2 < p := by rcases hs with h | h <;> omega
  have h1 : 1 ≤ p := by omega
  haveI : Fact (2 < p) := ⟨h2⟩
  have ret : ∀ {r : R FpElt} {z : ZMod p} {v : FpElt}, r = R.ok (el z) → r = R.ok v → Canon p v := by
    intro r z v h h'
    rw [h, R.ok.injEq] at h'
    rw [← h']
    exact canon_el z
  induction cl generalizing s with
  | done x => exact .done _
  | ofInt i n k ih => exact uses_andThen fun v hv => ih _ (upd_canon hc i (ret (elt_eq n) hv))
  | ofText i bs k ih =>
    refine uses_andThen fun v hv => ih _ (upd_canon hc i ?_)
    obtain ⟨n, hn⟩ := fromStr_elt hv
    exact ret (elt_eq n) hn
  | ofBytesBE i bs k ih => exact uses_andThen fun v hv => ih _ (upd_canon hc i (ret (elt_eq _) hv))
  | ofBytesLE i bs k ih => exact uses_andThen fun v hv => ih _ (upd_canon hc i (ret (elt_eq _) hv))
  | add i a b k ih =>
    exact uses_andThen fun v hv => ih _ (upd_canon hc i (ret (by rw [(hc a).eq_el, (hc b).eq_el]; exact add_el _ _) hv))
  | sub i a b k ih =>
    exact uses_andThen fun v hv => ih _ (upd_canon hc i (ret (by rw [(hc a).eq_el, (hc b).eq_el]; exact sub_el _ _) hv))
  | mul i a b k ih =>
    exact uses_andThen fun v hv => ih _ (upd_canon hc i (ret (by rw [(hc a).eq_el, (hc b).eq_el]; exact mul_el _ _) hv))
  | div i a b k ih =>
    exact uses_andThen fun v hv => ih _ (upd_canon hc i (ret (by rw [(hc a).eq_el, (hc b).eq_el]; exact div_el _ _) hv))
  | neg i a k ih => exact uses_andThen fun v hv => ih _ (upd_canon hc i (ret (by rw [(hc a).eq_el]; exact neg_el _) hv))
  | inv i a k ih => exact uses_andThen fun v hv => ih _ (upd_canon hc i (ret (by rw [(hc a).eq_el]; exact u32Div_el _) hv))
  | pow i a n k ih => exact uses_andThen fun v hv => ih _ (upd_canon hc i (ret (by rw [(hc a).eq_el]; exact powNat_el _ _) hv))
  | powInt i a n k ih => exact uses_andThen fun v hv => ih _ (upd_canon hc i (ret (by rw [(hc a).eq_el]; exact powInt_el _ _) hv))
  | sqrt i a k ih =>
    exact .sqrt _ _ _ hA (by rw [hf]; exact (hc a).1)
      (uses_andThen fun v hv => ih _ (upd_canon hc i (ret (by rw [(hc a).eq_el]; exact sqrt_el hs _) hv))) (.done _)
  | select i a b c k ih =>
    refine ih _ (upd_canon hc i ?_)
    cases c
    · exact hc a
    · exact hc b
  | eq a b k ih => exact ih _ _ hc
  | isZero a k ih => exact ih _ _ hc
  | isOne a k ih => exact ih _ _ hc
  | sgn0 a k ih => exact ih _ _ hc
  | isSquare a k ih => exact uses_andThen fun v hv => ih _ _ hc
  | bytesBE a k ih => exact uses_andThen fun v hv => ih _ _ hc
  | bytesLE a k ih => exact uses_andThen fun v hv => ih _ _ hc
  | text a k ih => exact uses_andThen fun v hv => ih _ _ hc

/-- When some square roots of a client are turned away by the cache, it ends with that panic. -/
theorem outcome_prog (f : Fp) (j : ℕ) (cl : FieldClient α) (s : ℕ → FpElt) (x : R α) (h : Outcome (cl.prog f j s) x) :
    x = cl.run (fpApi f) s ∨ x = R.panic .alreadyBorrowed := by
  have step : ∀ {β : Type} (r : R β) (k : β → Prog (R α)) (k' : β → R α), Outcome (andThen r k) x →
      (∀ v, Outcome (k v) x → x = k' v ∨ x = R.panic .alreadyBorrowed) → x = (r >>= k') ∨ x = R.panic .alreadyBorrowed := by
    intro β r k k' h hk
    cases r with
    | ok v => exact hk v h
    | panic e => cases h; exact .inl rfl
  induction cl generalizing s with
  | done y => cases h; exact .inl rfl
  | sqrt i a k ih =>
    obtain _ | ⟨_, _, _, _, h⟩ | ⟨_, _, _, _, h⟩ := h
    · exact step _ _ _ h fun v hv => ih _ hv
    · cases h; exact .inr rfl
  | select i a b c k ih => exact ih _ h
  | eq a b k ih => exact ih _ _ h
  | isZero a k ih => exact ih _ _ h
  | isOne a k ih => exact ih _ _ h
  | sgn0 a k ih => exact ih _ _ h
  | ofInt i n k ih => exact step _ _ _ h fun v hv => ih _ hv
  | ofText i bs k ih => exact step _ _ _ h fun v hv => ih _ hv
  | ofBytesBE i bs k ih => exact step _ _ _ h fun v hv => ih _ hv
  | ofBytesLE i bs k ih => exact step _ _ _ h fun v hv => ih _ hv
  | add i a b k ih => exact step _ _ _ h fun v hv => ih _ hv
  | sub i a b k ih => exact step _ _ _ h fun v hv => ih _ hv
  | mul i a b k ih => exact step _ _ _ h fun v hv => ih _ hv
  | div i a b k ih => exact step _ _ _ h fun v hv => ih _ hv
  | neg i a k ih => exact step _ _ _ h fun v hv => ih _ hv
  | inv i a k ih => exact step _ _ _ h fun v hv => ih _ hv
  | pow i a n k ih => exact step _ _ _ h fun v hv => ih _ hv
  | powInt i a n k ih => exact step _ _ _ h fun v hv => ih _ hv
  | isSquare a k ih => exact step _ _ _ h fun v hv => ih _ _ hv
  | bytesBE a k ih => exact step _ _ _ h fun v hv => ih _ _ hv
  | bytesLE a k ih => exact step _ _ _ h fun v hv => ih _ _ hv
  | text a k ih => exact step _ _ _ h fun v hv => ih _ _ hv

/-- C123, threads. There are square roots, bytes, texts and a reading of texts (as in `C123_prime_field`), such that for any number of threads that run any clients, on fields
(allocations, calls of `Fp::new`) shared in any way, under any schedule, a thread that has ended has the outcome of its client with the integers modulo `p` or
the panic of the borrowed cache; the latter only if another thread shares its field. Every thread that is scheduled again and again ends. -/
theorem _root_.Redox.Props.C123_threads (hs : p % 4 = 3 ∨ p % 8 = 5) :
    ∃ (root : ZMod p → ZMod p) (bytes text : ZMod p → List Byte) (parse : List Byte → R (ZMod p)),
      (∀ a, IsSquare a → root a * root a = a) ∧
      (∀ a, (bytes a).length = (Fp.new p).sizeBytes ∧ bigEndian (bytes a) = a.val) ∧
      (∀ a, decimalValue (text a) = a.val ∧ ∀ b ∈ text a, 48 ≤ b.toNat ∧ b.toNat ≤ 57) ∧
      (∀ neg form ds, form ∈ literalForms → ds ≠ [] → (∀ d ∈ ds, d.1 < form.1) →
        parse (literal neg form.2 ds) = R.ok (if neg then -(litValue form.1 ds : ZMod p) else litValue form.1 ds)) ∧
      ∀ (α : Type) (cl : ℕ → FieldClient α) (s : ℕ → ℕ → FpElt) (alloc : ℕ → ℕ), (∀ t i, Canon p (s t i)) →
        let start := Threads.init fun t => (cl t).prog (Fp.new p) (alloc t) (s t)
        let ideal := fun t => (cl t).run (zmodApi p root bytes text parse) fun i => val p (s t i)
        (∀ (ts : List ℕ) (t : ℕ) (x : R α), ((start.run ts).thread t).prog = .done x →
          ((∀ u, u ≠ t → alloc u ≠ alloc t) → x = ideal t) ∧ (x = ideal t ∨ x = R.panic .alreadyBorrowed)) ∧
        ∀ (sched : ℕ → ℕ) (t : ℕ), (∀ n, ∃ m, n ≤ m ∧ sched m = t) → ∃ n x, ((along start sched n).thread t).prog = .done x := by
  obtain ⟨root, bytes, text, parse, h1, h2, h3, h5, h4⟩ := C123_prime_field p hs
  refine ⟨root, bytes, text, parse, h1, h2, h3, h5, fun α cl s alloc hc => ⟨fun ts t x hx => ⟨fun hinj => ?_, ?_⟩, fun sched t ht => C08_programs_progress _ sched t ht⟩⟩
  · have := C08_programs_private (fun _ => Fp.new p) (fun i => i = alloc t) (fun t => (cl t).prog (Fp.new p) (alloc t) (s t)) t
      (prog_uses (fld := fun _ => Fp.new p) (A := fun i => i = alloc t) p hs (j := alloc t) rfl rfl (cl t) (s t) (hc t))
      (fun u hu => prog_uses (fld := fun _ => Fp.new p) (A := fun i => ¬ i = alloc t) p hs (j := alloc u) (hinj u hu) rfl (cl u) (s u) (hc u)) ts x hx
    rw [this, prog_alone]
    exact h4 α (cl t) (s t) (hc t)
  · have := C08_programs_safety (fun _ => Fp.new p) (fun t => (cl t).prog (Fp.new p) (alloc t) (s t))
      (fun t => prog_uses (fld := fun _ => Fp.new p) (A := fun _ => True) p hs (j := alloc t) trivial rfl (cl t) (s t) (hc t)) ts t x hx
    rcases outcome_prog _ _ _ _ _ this with h | h
    · exact .inl (h.trans (h4 α (cl t) (s t) (hc t)))
    · exact .inr h

end

end Redox.Props.ClientThreads
