import Verif.Model.QuadCache
import Verif.Spec.Field

/-!
# C91: the square-root cache of the quadratic field
-/

namespace Redox.Props.QuadCache



/-- The cell of a field between calls: not borrowed, and empty or holding the field's own constants. -/
def CellOK (f : Fp2) (c : QuadCell) : Prop :=
  c.borrowed = false ∧ ∀ v, c.slot = some v → f.calcSqrtPrecmp = R.ok v

/-- A history of `sqrt` calls on elements sharing one cell: the results in order, and the final cell. -/
def sqrtHistory (c : QuadCell) : List Fp2Elt → List (R Fp2Elt) × QuadCell
  | [] => ([], c)
  | a :: as =>
    let (r, c) := a.sqrtCached c
    let (rs, c) := sqrtHistory c as
    (r :: rs, c)

theorem sqrtCached_of_ok (f : Fp2) (a : Fp2Elt) (ha : a.f = f) (c : QuadCell) (h : CellOK f c) :
    (a.sqrtCached c).1 = a.sqrt ∧ CellOK f (a.sqrtCached c).2 := by
  obtain ⟨hb, hs⟩ := h
  obtain ⟨slot, borrowed⟩ := c
  simp only at hb hs
  subst hb ha
  cases hc : a.f.calcSqrtPrecmp with
  | panic e =>
    simp only [Fp2Elt.sqrtCached, Fp2.getSqrtPrecmp, QuadCell.borrowMut, hc, Fp2Elt.sqrt, R.panic_bind]
    refine ⟨rfl, rfl, fun v hv => ?_⟩
    exact hs v hv
  | ok v =>
    cases slot with
    | none =>
      simp only [Fp2Elt.sqrtCached, Fp2.getSqrtPrecmp, QuadCell.borrowMut, hc, Fp2Elt.sqrt, R.ok_bind,
        QuadCell.getOrInsertAndDrop]
      refine ⟨rfl, rfl, fun w hw => ?_⟩
      simp only [Bool.false_eq_true, if_false, Option.some.injEq] at hw
      rw [hc, hw]
    | some w =>
      have hw := hs w rfl
      rw [hc, R.ok.injEq] at hw
      subst hw
      simp only [Fp2Elt.sqrtCached, Fp2.getSqrtPrecmp, QuadCell.borrowMut, hc, Fp2Elt.sqrt, R.ok_bind,
        QuadCell.getOrInsertAndDrop]
      refine ⟨rfl, rfl, fun u hu => ?_⟩
      simp only [Bool.false_eq_true, if_false, Option.some.injEq] at hu
      rw [hc, hu]

theorem history_of_ok (f : Fp2) : ∀ (as : List Fp2Elt) (c : QuadCell), (∀ a ∈ as, a.f = f) → CellOK f c →
    (sqrtHistory c as).1 = as.map Fp2Elt.sqrt ∧ CellOK f (sqrtHistory c as).2
  | [], c, _, h => ⟨rfl, h⟩
  | a :: as, c, ha, h => by
    have h1 := sqrtCached_of_ok f a (ha a (by simp)) c h
    have h2 := history_of_ok f as (a.sqrtCached c).2 (fun b hb => ha b (by simp [hb])) h1.2
    simp only [sqrtHistory, List.map_cons]
    exact ⟨by rw [h1.1, h2.1], h2.2⟩

/-- C91, one thread. In any history of `sqrt` calls on elements of a field and its clones, starting from the cell of
`Fp2::new`, every call returns what it would return on a fresh field (`Fp2Elt.sqrt`), and after the history the cell is
not borrowed.
Partial: with several threads the claim is false, see `C91_refuted_concurrent`. -/
theorem _root_.Redox.Props.C91_sequential_partial (f : Fp2) (as : List Fp2Elt) (h : ∀ a ∈ as, a.f = f) :
    (sqrtHistory QuadCell.new as).1 = as.map (fun a => (a.sqrtCached QuadCell.new).1) ∧
    (sqrtHistory QuadCell.new as).1 = as.map Fp2Elt.sqrt ∧
    (sqrtHistory QuadCell.new as).2.borrowed = false := by
  have h0 : CellOK f QuadCell.new := ⟨rfl, by simp [QuadCell.new]⟩
  have h1 := history_of_ok f as QuadCell.new h h0
  refine ⟨?_, h1.1, h1.2.1⟩
  rw [h1.1]
  apply List.map_congr_left
  intro a ha
  exact (sqrtCached_of_ok f a (h a ha) _ h0).1.symm

/-- Invariant of the concurrent system: the flag is set iff some thread is inside, at most one thread is, the slot
holds the field's constants if anything, and every logged result is those constants or the borrow panic. -/
def WorldOK (f : Fp2) (w : QuadWorld) : Prop :=
  (∀ t u, w.pc t = .holding → w.pc u = .holding → t = u) ∧
  (w.cell.borrowed = true ↔ ∃ t, w.pc t = .holding) ∧
  (∀ v, w.cell.slot = some v → f.calcSqrtPrecmp = R.ok v) ∧
  (∀ e ∈ w.log, e.2 = f.calcSqrtPrecmp ∨ e.2 = R.panic .alreadyBorrowed)

theorem WorldOK.step {f : Fp2} {w : QuadWorld} (h : WorldOK f w) (t : ℕ) : WorldOK f (w.step f t) := by
  obtain ⟨h1, h2, h3, h4⟩ := h
  unfold QuadWorld.step
  split
  · rename_i hpc
    unfold QuadCell.borrowMut
    by_cases hb : w.cell.borrowed = true
    · rw [if_pos hb]
      refine ⟨h1, h2, h3, fun e he => ?_⟩
      rcases List.mem_cons.1 he with rfl | he
      · exact Or.inr rfl
      · exact h4 e he
    · rw [if_neg hb]
      have hno : ∀ u, w.pc u ≠ .holding := fun u hu => hb (h2.2 ⟨u, hu⟩)
      refine ⟨fun u v hu hv => ?_, ⟨fun _ => ⟨t, by simp⟩, fun _ => rfl⟩, h3, h4⟩
      simp only at hu hv
      split_ifs at hu hv with a b
      · rw [a, b]
      · exact absurd hv (hno v)
      · exact absurd hu (hno u)
      · exact absurd hu (hno u)
  · rename_i hpc
    have hothers : ∀ u, u ≠ t → w.pc u ≠ .holding := fun u hu hh => hu (h1 u t hh hpc)
    have key : ∀ (c : QuadCell) (r : R SqrtPrecmp2), c.borrowed = false →
        (∀ v, c.slot = some v → f.calcSqrtPrecmp = R.ok v) →
        (r = f.calcSqrtPrecmp ∨ r = R.panic .alreadyBorrowed) →
        WorldOK f { cell := c, pc := fun u => if u = t then .idle else w.pc u, log := (t, r) :: w.log } := by
      intro c r hc hs hr
      refine ⟨fun u v hu hv => ?_, ⟨fun h => ?_, ?_⟩, hs, fun e he => ?_⟩
      · simp only at hu
        split_ifs at hu with a
        exact absurd hu (hothers u a)
      · rw [hc] at h; cases h
      · rintro ⟨u, hu⟩
        simp only at hu
        split_ifs at hu with a
        exact absurd hu (hothers u a)
      · rcases List.mem_cons.1 he with rfl | he
        · exact hr
        · exact h4 e he
    split
    · rename_i e hc
      exact key _ _ rfl h3 (Or.inl hc.symm)
    · rename_i v hc
      unfold QuadCell.getOrInsertAndDrop
      split
      · rename_i heq
        split at heq
        · rename_i w' hw'
          simp only [Prod.mk.injEq] at heq
          obtain ⟨rfl, rfl⟩ := heq
          exact key _ _ rfl (fun u hu => h3 u hu) (Or.inl (h3 _ hw').symm)
        · simp only [Prod.mk.injEq] at heq
          obtain ⟨rfl, rfl⟩ := heq
          exact key _ _ rfl (fun u hu => by simp only [Option.some.injEq] at hu; rw [← hu]; exact hc) (Or.inl hc.symm)

theorem WorldOK.run {f : Fp2} : ∀ {w : QuadWorld} (_ : WorldOK f w) (ts : List ℕ), WorldOK f (w.run f ts)
  | _, h, [] => h
  | _, h, t :: ts => WorldOK.run (h.step t) ts

/-- C91, several threads, safety: under every schedule of any number of threads every finished call either returned
the field's own constants or panicked because the cell was borrowed; a wrong constant is never returned. -/
theorem _root_.Redox.Props.C91_concurrent_safety (f : Fp2) (ts : List ℕ) :
    ∀ e ∈ (QuadWorld.init.run f ts).log, e.2 = f.calcSqrtPrecmp ∨ e.2 = R.panic .alreadyBorrowed := by
  have h0 : WorldOK f QuadWorld.init := by
    refine ⟨?_, ⟨?_, ?_⟩, ?_, ?_⟩ <;> simp [QuadWorld.init, QuadCell.new]
  exact (h0.run ts).2.2.2

/-- Schedules in which every call runs without interruption: `t t u u …`. -/
def uninterrupted : List ℕ → List ℕ
  | [] => []
  | t :: ts => t :: t :: uninterrupted ts

theorem uninterrupted_run (f : Fp2) : ∀ (ts : List ℕ) (w : QuadWorld), WorldOK f w → (∀ t, w.pc t = .idle) →
    (w.run f (uninterrupted ts)).log = (ts.map fun t => (t, f.calcSqrtPrecmp)).reverse ++ w.log
  | [], w, _, _ => rfl
  | t :: ts, w, hw, hi => by
    have hb : w.cell.borrowed = false := by
      cases hb : w.cell.borrowed
      · rfl
      · obtain ⟨u, hu⟩ := hw.2.1.1 hb; rw [hi u] at hu; cases hu
    have hw2 := (hw.step t).step t
    have h2 : (∀ u, ((w.step f t).step f t).pc u = .idle) ∧
        ((w.step f t).step f t).log = (t, f.calcSqrtPrecmp) :: w.log := by
      have hs : w.step f t = ⟨⟨w.cell.slot, true⟩,
          fun u => if u = t then .holding else w.pc u, w.log⟩ := by
        simp [QuadWorld.step, hi t, QuadCell.borrowMut, hb]
      rw [hs]
      simp only [QuadWorld.step, if_true]
      cases hc : f.calcSqrtPrecmp with
      | panic e => exact ⟨fun u => by simp only; split_ifs with a <;> simp [hi u], rfl⟩
      | ok v =>
        refine ⟨fun u => by simp only; split_ifs with a <;> simp [hi u], ?_⟩
        simp only [QuadCell.getOrInsertAndDrop]
        cases hs' : w.cell.slot with
        | none => rfl
        | some v' =>
          have := hw.2.2.1 v' hs'
          rw [hc] at this
          cases this
          rfl
    rw [uninterrupted, QuadWorld.run, QuadWorld.run, uninterrupted_run f ts _ hw2 h2.1, h2.2]
    simp

/-- C91, several threads, positive part: if no two calls overlap in time, every call returns, in the order of the calls (the last entry of the
record comes first), and its result is the field's constants. -/
theorem _root_.Redox.Props.C91_concurrent_nonoverlapping (f : Fp2) (ts : List ℕ) :
    (QuadWorld.init.run f (uninterrupted ts)).log = (ts.map fun t => (t, f.calcSqrtPrecmp)).reverse := by
  rw [uninterrupted_run f ts _ ?_ (fun _ => rfl)]
  · simp [QuadWorld.init]
  · refine ⟨?_, ⟨?_, ?_⟩, ?_, ?_⟩ <;> simp [QuadWorld.init, QuadCell.new]

/-- C91 is refuted for several threads: on every quadratic field whose square roots are implemented (`p % 4 = 3`), two threads whose calls
overlap (thread 0 takes the borrow, then thread 1 tries) make thread 1 panic although a lone call would have returned the constants. -/
theorem _root_.Redox.Props.C91_refuted_concurrent (p : ℕ) (hp : p % 4 = 3) :
    (1, R.panic .alreadyBorrowed) ∈ (QuadWorld.init.run ⟨⟨p⟩⟩ [0, 1, 0]).log ∧
    ∃ v, Fp2.calcSqrtPrecmp ⟨⟨p⟩⟩ = R.ok v := by
  have hv : Fp2.calcSqrtPrecmp ⟨⟨p⟩⟩ = R.ok (((p : ℤ) - 3) / 4, ((p : ℤ) - 1) / 2) := by
    have : (p : ℤ) % 4 = 3 := by omega
    simp [Fp2.calcSqrtPrecmp, Fp2.getModulus, Fp.getModulus, this]
  refine ⟨?_, _, hv⟩
  simp [QuadWorld.run, QuadWorld.step, QuadWorld.init, QuadCell.new, QuadCell.borrowMut, hv,
    QuadCell.getOrInsertAndDrop]

/-- C91, the panic of the unimplemented case leaves nothing behind: for a modulus that is not 3 modulo 4 every call of every history panics
with `unimplemented`, and after the history the cell is as `Fp2::new` made it, empty and not borrowed. -/
theorem _root_.Redox.Props.C91_no_poison (p : ℕ) (hp : p % 4 ≠ 3) (as : List Fp2Elt) (h : ∀ a ∈ as, a.f = ⟨⟨p⟩⟩) :
    sqrtHistory QuadCell.new as = (as.map fun _ => R.panic .unimplemented, QuadCell.new) := by
  have hv : Fp2.calcSqrtPrecmp ⟨⟨p⟩⟩ = R.panic .unimplemented := by
    have : ¬(p : ℤ) % 4 = 3 := by omega
    simp [Fp2.calcSqrtPrecmp, Fp2.getModulus, Fp.getModulus, this]
  induction as with
  | nil => rfl
  | cons a as ih =>
    have ha : (a.sqrtCached QuadCell.new) = (R.panic .unimplemented, QuadCell.new) := by
      simp [Fp2Elt.sqrtCached, Fp2.getSqrtPrecmp, h a (by simp), hv, QuadCell.borrowMut, QuadCell.new]
    simp only [sqrtHistory, ha, List.map_cons, ih (fun b hb => h b (by simp [hb]))]

/-- C91, several threads, exactly when a call fails: after any schedule, a thread that starts a call is turned away with a panic at once if
another thread is inside a call, and otherwise its call goes on to return the field's own constants (or the panic of computing them),
whatever the other threads do meanwhile. -/
theorem _root_.Redox.Props.C91_concurrent_exact (f : Fp2) (ts : List ℕ) (t : ℕ) (ht : (QuadWorld.init.run f ts).pc t = .idle) :
    ((∃ u, (QuadWorld.init.run f ts).pc u = .holding) →
      ((QuadWorld.init.run f ts).step f t).log = (t, R.panic .alreadyBorrowed) :: (QuadWorld.init.run f ts).log) ∧
    ((∀ u, (QuadWorld.init.run f ts).pc u = .idle) → ∀ us : List ℕ, t ∉ us →
      ((((QuadWorld.init.run f ts).step f t).run f us).step f t).log =
        (t, f.calcSqrtPrecmp) :: (((QuadWorld.init.run f ts).step f t).run f us).log ∧
      ∀ e ∈ (((QuadWorld.init.run f ts).step f t).run f us).log,
        e ∈ (QuadWorld.init.run f ts).log ∨ e.2 = R.panic .alreadyBorrowed) := by
  have h0 : WorldOK f QuadWorld.init := by
    refine ⟨?_, ⟨?_, ?_⟩, ?_, ?_⟩ <;> simp [QuadWorld.init, QuadCell.new]
  have hw := h0.run ts
  generalize QuadWorld.init.run f ts = w at hw ht ⊢
  refine ⟨fun hu => ?_, fun hall us hus => ?_⟩
  · have hb := hw.2.1.2 hu
    simp [QuadWorld.step, ht, QuadCell.borrowMut, hb]
  · have hb : w.cell.borrowed = false := by
      cases hb : w.cell.borrowed
      · rfl
      · obtain ⟨u, hu⟩ := hw.2.1.1 hb; rw [hall u] at hu; cases hu
    have hs : w.step f t = ⟨⟨w.cell.slot, true⟩, fun u => if u = t then .holding else w.pc u, w.log⟩ := by
      simp [QuadWorld.step, ht, QuadCell.borrowMut, hb]
    have inv : ∀ (us : List ℕ) (v : QuadWorld), t ∉ us → v.cell.borrowed = true → v.pc t = .holding →
        (∀ u, u ≠ t → v.pc u = .idle) → (v.run f us).cell = v.cell ∧ (v.run f us).pc = v.pc ∧
          ∀ e ∈ (v.run f us).log, e ∈ v.log ∨ e.2 = R.panic .alreadyBorrowed := by
      intro us
      induction us with
      | nil => exact fun v _ _ _ _ => ⟨rfl, rfl, fun e he => Or.inl he⟩
      | cons u us ih =>
        intro v hn hvb hvt hvu
        have hut : u ≠ t := fun h => hn (by simp [h])
        have hv : v.step f u = { v with log := (u, R.panic .alreadyBorrowed) :: v.log } := by
          simp [QuadWorld.step, hvu u hut, QuadCell.borrowMut, hvb]
        obtain ⟨a, b, c⟩ := ih (v.step f u) (fun h => hn (by simp [h])) (by rw [hv]; exact hvb) (by rw [hv]; exact hvt)
          (by rw [hv]; exact hvu)
        rw [QuadWorld.run]
        refine ⟨by rw [a, hv], by rw [b, hv], fun e he => ?_⟩
        rcases c e he with h | h
        · rw [hv] at h
          rcases List.mem_cons.1 h with rfl | h
          · exact Or.inr rfl
          · exact Or.inl h
        · exact Or.inr h
    obtain ⟨hc, hp, hl⟩ := inv us (w.step f t) hus (by rw [hs]) (by rw [hs]; simp) (fun u hu => by rw [hs]; simp [hu, hall u])
    refine ⟨?_, fun e he => ?_⟩
    · have hpt : ((w.step f t).run f us).pc t = .holding := by rw [hp, hs]; simp
      generalize (w.step f t).run f us = v at hc hpt ⊢
      have hslot : v.cell.slot = w.cell.slot := by rw [hc, hs]
      unfold QuadWorld.step
      simp only [hpt]
      cases hf : f.calcSqrtPrecmp with
      | panic e => rfl
      | ok c =>
        simp only [QuadCell.getOrInsertAndDrop, hslot]
        cases hs' : w.cell.slot with
        | none => rfl
        | some c' => have := hw.2.2.1 c' hs'; rw [hf] at this; rw [this]
    · have := hl e he
      rwa [hs] at this

/-- C91 is refuted for several threads also when the cache has been filled long before: after any schedule that leaves no thread inside
a call, overlapping calls of two threads make the second one panic. -/
theorem _root_.Redox.Props.C91_refuted_warm (f : Fp2) (ts : List ℕ) (h : ∀ u, (QuadWorld.init.run f ts).pc u = .idle) (t u : ℕ) (htu : u ≠ t) :
    (u, R.panic .alreadyBorrowed) ∈ (QuadWorld.init.run f (ts ++ [t, u])).log := by
  have hrun : ∀ (ts us : List ℕ) (w : QuadWorld), w.run f (ts ++ us) = (w.run f ts).run f us := by
    intro ts
    induction ts with
    | nil => intro us w; rfl
    | cons a ts ih => intro us w; exact ih us _
  rw [hrun]
  have h0 : WorldOK f QuadWorld.init := by
    refine ⟨?_, ⟨?_, ?_⟩, ?_, ?_⟩ <;> simp [QuadWorld.init, QuadCell.new]
  have hw := h0.run ts
  generalize QuadWorld.init.run f ts = w at hw h ⊢
  have hb : w.cell.borrowed = false := by
    cases hb : w.cell.borrowed
    · rfl
    · obtain ⟨u, hu⟩ := hw.2.1.1 hb; rw [h u] at hu; cases hu
  simp [QuadWorld.run, QuadWorld.step, h t, h u, QuadCell.borrowMut, hb, htu]

/-- The hypothesis is met after a completed call, when the cache is full. -/
example : (QuadWorld.init.run ⟨⟨7⟩⟩ [0, 0]).cell = ⟨some (1, 3), false⟩ ∧ ∀ u, (QuadWorld.init.run ⟨⟨7⟩⟩ [0, 0]).pc u = .idle := by
  refine ⟨by decide +kernel, fun u => ?_⟩
  have : Fp2.calcSqrtPrecmp ⟨⟨7⟩⟩ = R.ok (1, 3) := by decide +kernel
  simp [QuadWorld.run, QuadWorld.step, QuadWorld.init, QuadCell.new, QuadCell.borrowMut, this, QuadCell.getOrInsertAndDrop]

/-- Non-vacuity: two calls on the field with 49 elements, the second one served from the cache. -/
example : (sqrtHistory QuadCell.new [⟨⟨2, ⟨7⟩⟩, ⟨0, ⟨7⟩⟩, ⟨⟨7⟩⟩⟩, ⟨⟨3, ⟨7⟩⟩, ⟨1, ⟨7⟩⟩, ⟨⟨7⟩⟩⟩]).2 = ⟨some (1, 3), false⟩ := by
  decide +kernel

example : (QuadWorld.init.run ⟨⟨7⟩⟩ [0, 0, 1, 1]).log = [(1, R.ok (1, 3)), (0, R.ok (1, 3))] := by
  decide +kernel

/-- Non-vacuity of `C91_no_poison`: p = 13. -/
example : sqrtHistory QuadCell.new [⟨⟨2, ⟨13⟩⟩, ⟨0, ⟨13⟩⟩, ⟨⟨13⟩⟩⟩, ⟨⟨3, ⟨13⟩⟩, ⟨1, ⟨13⟩⟩, ⟨⟨13⟩⟩⟩] =
    ([R.panic .unimplemented, R.panic .unimplemented], QuadCell.new) := by
  decide +kernel

end Redox.Props.QuadCache
