import Verif.Proofs.SqrtLink
import Verif.Model.Cache

/-!
# C08: the square-root cache
-/

namespace Redox.Props

open Spec

/-- The cell of a field between calls: not borrowed, and empty or holding the field's own constants. -/
def CellOK (f : Fp) (c : CacheCell) : Prop :=
  c.borrowed = false ∧ ∀ v, c.slot = some v → f.calcSqrtPrecmp = R.ok v

/-- A history of `sqrt` calls on elements sharing one cell: the results in order, and the final cell. -/
def sqrtHistory (c : CacheCell) : List FpElt → List (R FpElt) × CacheCell
  | [] => ([], c)
  | a :: as =>
    let (r, c) := a.sqrtCached c
    let (rs, c) := sqrtHistory c as
    (r :: rs, c)

theorem sqrtCached_of_ok (f : Fp) (a : FpElt) (ha : a.f = f) (c : CacheCell) (h : CellOK f c) :
    (a.sqrtCached c).1 = a.sqrt ∧ CellOK f (a.sqrtCached c).2 := by
  obtain ⟨hb, hs⟩ := h
  obtain ⟨slot, borrowed⟩ := c
  simp only at hb hs
  subst hb ha
  cases hc : a.f.calcSqrtPrecmp with
  | panic e =>
    simp only [FpElt.sqrtCached, Fp.getSqrtPrecmp, CacheCell.borrowMut, hc, FpElt.sqrt, R.panic_bind]
    refine ⟨rfl, rfl, fun v hv => ?_⟩
    exact hs v hv
  | ok v =>
    cases slot with
    | none =>
      simp only [FpElt.sqrtCached, Fp.getSqrtPrecmp, CacheCell.borrowMut, hc, FpElt.sqrt, R.ok_bind,
        CacheCell.getOrInsertAndDrop]
      refine ⟨rfl, rfl, fun w hw => ?_⟩
      simp only [Bool.false_eq_true, if_false, Option.some.injEq] at hw
      rw [hc, hw]
    | some w =>
      have hw := hs w rfl
      rw [hc, R.ok.injEq] at hw
      subst hw
      simp only [FpElt.sqrtCached, Fp.getSqrtPrecmp, CacheCell.borrowMut, hc, FpElt.sqrt, R.ok_bind,
        CacheCell.getOrInsertAndDrop]
      refine ⟨rfl, rfl, fun u hu => ?_⟩
      simp only [Bool.false_eq_true, if_false, Option.some.injEq] at hu
      rw [hc, hu]

theorem history_of_ok (f : Fp) : ∀ (as : List FpElt) (c : CacheCell), (∀ a ∈ as, a.f = f) → CellOK f c →
    (sqrtHistory c as).1 = as.map FpElt.sqrt ∧ CellOK f (sqrtHistory c as).2
  | [], c, _, h => ⟨rfl, h⟩
  | a :: as, c, ha, h => by
    have h1 := sqrtCached_of_ok f a (ha a (by simp)) c h
    have h2 := history_of_ok f as (a.sqrtCached c).2 (fun b hb => ha b (by simp [hb])) h1.2
    simp only [sqrtHistory, List.map_cons]
    exact ⟨by rw [h1.1, h2.1], h2.2⟩

/-- C08, one thread. In any history of `sqrt` calls on elements of a field and its clones, starting from the cell of
`Fp::new`, every call returns what it would return on a fresh field (`FpElt.sqrt`), and after the history the cell is
not borrowed.
Partial: with several threads the claim is false, see `C08_refuted_concurrent`. -/
theorem C08_sequential_partial (f : Fp) (as : List FpElt) (h : ∀ a ∈ as, a.f = f) :
    (sqrtHistory CacheCell.new as).1 = as.map (fun a => (a.sqrtCached CacheCell.new).1) ∧
    (sqrtHistory CacheCell.new as).1 = as.map FpElt.sqrt ∧
    (sqrtHistory CacheCell.new as).2.borrowed = false := by
  have h0 : CellOK f CacheCell.new := ⟨rfl, by simp [CacheCell.new]⟩
  have h1 := history_of_ok f as CacheCell.new h h0
  refine ⟨?_, h1.1, h1.2.1⟩
  rw [h1.1]
  apply List.map_congr_left
  intro a ha
  exact (sqrtCached_of_ok f a (h a ha) _ h0).1.symm

/-- `calc_sqrt_precmp` never panics on a modulus of at least 2. -/
theorem calcSqrtPrecmp_total (p : ℕ) (hp : 2 ≤ p) : ∃ v, Fp.calcSqrtPrecmp ⟨p⟩ = R.ok v := by
  haveI : Fact (1 < p) := ⟨hp⟩
  by_cases h1 : 3 = p % 4
  · exact ⟨_, by simp [Fp.calcSqrtPrecmp, h1]; rfl⟩
  · by_cases h2 : 5 = p % 8
    · simp [Fp.calcSqrtPrecmp, h1, h2, powInt_el]
    · by_cases h3 : 9 = p % 16
      · exact ⟨_, by simp [Fp.calcSqrtPrecmp, h1, h2, h3]; rfl⟩
      · exact ⟨_, by simp [Fp.calcSqrtPrecmp, h1, h2, h3]; rfl⟩

/-- Invariant of the concurrent system: the flag is set iff some thread is inside, at most one thread is, the slot
holds the field's constants if anything, and every logged result is those constants or the borrow panic. -/
def WorldOK (f : Fp) (w : CacheWorld) : Prop :=
  (∀ t u, w.pc t = .holding → w.pc u = .holding → t = u) ∧
  (w.cell.borrowed = true ↔ ∃ t, w.pc t = .holding) ∧
  (∀ v, w.cell.slot = some v → f.calcSqrtPrecmp = R.ok v) ∧
  (∀ e ∈ w.log, e.2 = f.calcSqrtPrecmp ∨ e.2 = R.panic .alreadyBorrowed)

theorem WorldOK.step {f : Fp} {w : CacheWorld} (h : WorldOK f w) (t : ℕ) : WorldOK f (w.step f t) := by
  obtain ⟨h1, h2, h3, h4⟩ := h
  unfold CacheWorld.step
  split
  · rename_i hpc
    unfold CacheCell.borrowMut
    by_cases hb : w.cell.borrowed = true
    · rw [if_pos hb]
      refine ⟨h1, h2, h3, fun e he => ?_⟩
      rcases List.mem_cons.1 he with rfl | he
      · exact Or.inr rfl
      · exact h4 e he
    · rw [if_neg hb]
      have hno : ∀ u, w.pc u ≠ .holding := fun u hu => hb (h2.2 ⟨u, hu⟩)
      refine ⟨fun u v hu hv => ?_, ⟨fun _ => ⟨t, by simp⟩, fun _ => rfl⟩, h3, h4⟩
      simp only at hu hv
      split_ifs at hu hv with a b
      · rw [a, b]
      · exact absurd hv (hno v)
      · exact absurd hu (hno u)
      · exact absurd hu (hno u)
  · rename_i hpc
    have hothers : ∀ u, u ≠ t → w.pc u ≠ .holding := fun u hu hh => hu (h1 u t hh hpc)
    have key : ∀ (c : CacheCell) (r : R SqrtPrecmp), c.borrowed = false →
        (∀ v, c.slot = some v → f.calcSqrtPrecmp = R.ok v) →
        (r = f.calcSqrtPrecmp ∨ r = R.panic .alreadyBorrowed) →
        WorldOK f { cell := c, pc := fun u => if u = t then .idle else w.pc u, log := (t, r) :: w.log } := by
      intro c r hc hs hr
      refine ⟨fun u v hu hv => ?_, ⟨fun h => ?_, ?_⟩, hs, fun e he => ?_⟩
      · simp only at hu
        split_ifs at hu with a
        exact absurd hu (hothers u a)
      · rw [hc] at h; cases h
      · rintro ⟨u, hu⟩
        simp only at hu
        split_ifs at hu with a
        exact absurd hu (hothers u a)
      · rcases List.mem_cons.1 he with rfl | he
        · exact hr
        · exact h4 e he
    split
    · rename_i e hc
      exact key _ _ rfl h3 (Or.inl hc.symm)
    · rename_i v hc
      unfold CacheCell.getOrInsertAndDrop
      split
      · rename_i heq
        split at heq
        · rename_i w' hw'
          simp only [Prod.mk.injEq] at heq
          obtain ⟨rfl, rfl⟩ := heq
          exact key _ _ rfl (fun u hu => h3 u hu) (Or.inl (h3 _ hw').symm)
        · simp only [Prod.mk.injEq] at heq
          obtain ⟨rfl, rfl⟩ := heq
          exact key _ _ rfl (fun u hu => by simp only [Option.some.injEq] at hu; rw [← hu]; exact hc) (Or.inl hc.symm)

theorem WorldOK.run {f : Fp} : ∀ {w : CacheWorld} (_ : WorldOK f w) (ts : List ℕ), WorldOK f (w.run f ts)
  | _, h, [] => h
  | _, h, t :: ts => WorldOK.run (h.step t) ts

/-- C08, several threads, safety: under every schedule of any number of threads every finished call either returned
the field's own constants or panicked because the cell was borrowed; a wrong constant is never returned. -/
theorem C08_concurrent_safety (f : Fp) (ts : List ℕ) :
    ∀ e ∈ (CacheWorld.init.run f ts).log, e.2 = f.calcSqrtPrecmp ∨ e.2 = R.panic .alreadyBorrowed := by
  have h0 : WorldOK f CacheWorld.init := by
    refine ⟨?_, ⟨?_, ?_⟩, ?_, ?_⟩ <;> simp [CacheWorld.init, CacheCell.new]
  exact (h0.run ts).2.2.2

/-- Schedules in which every call runs without interruption: `t t u u …`. -/
def uninterrupted : List ℕ → List ℕ
  | [] => []
  | t :: ts => t :: t :: uninterrupted ts

theorem uninterrupted_run (f : Fp) : ∀ (ts : List ℕ) (w : CacheWorld), WorldOK f w → (∀ t, w.pc t = .idle) →
    (w.run f (uninterrupted ts)).log = (ts.map fun t => (t, f.calcSqrtPrecmp)).reverse ++ w.log
  | [], w, _, _ => rfl
  | t :: ts, w, hw, hi => by
    have hb : w.cell.borrowed = false := by
      cases hb : w.cell.borrowed
      · rfl
      · obtain ⟨u, hu⟩ := hw.2.1.1 hb; rw [hi u] at hu; cases hu
    have hw2 := (hw.step t).step t
    have h2 : (∀ u, ((w.step f t).step f t).pc u = .idle) ∧
        ((w.step f t).step f t).log = (t, f.calcSqrtPrecmp) :: w.log := by
      have hs : w.step f t = ⟨⟨w.cell.slot, true⟩,
          fun u => if u = t then .holding else w.pc u, w.log⟩ := by
        simp [CacheWorld.step, hi t, CacheCell.borrowMut, hb]
      rw [hs]
      simp only [CacheWorld.step, if_true]
      cases hc : f.calcSqrtPrecmp with
      | panic e => exact ⟨fun u => by simp only; split_ifs with a <;> simp [hi u], rfl⟩
      | ok v =>
        refine ⟨fun u => by simp only; split_ifs with a <;> simp [hi u], ?_⟩
        simp only [CacheCell.getOrInsertAndDrop]
        cases hs' : w.cell.slot with
        | none => rfl
        | some v' =>
          have := hw.2.2.1 v' hs'
          rw [hc] at this
          cases this
          rfl
    rw [uninterrupted, CacheWorld.run, CacheWorld.run, uninterrupted_run f ts _ hw2 h2.1, h2.2]
    simp

/-- C08, several threads, positive part: if no two calls overlap in time, every call returns, in the order of the calls (the last entry of the
record comes first), and its result is the field's constants. -/
theorem C08_concurrent_nonoverlapping (f : Fp) (ts : List ℕ) :
    (CacheWorld.init.run f (uninterrupted ts)).log = (ts.map fun t => (t, f.calcSqrtPrecmp)).reverse := by
  rw [uninterrupted_run f ts _ ?_ (fun _ => rfl)]
  · simp [CacheWorld.init]
  · refine ⟨?_, ⟨?_, ?_⟩, ?_, ?_⟩ <;> simp [CacheWorld.init, CacheCell.new]

/-- C08 is refuted for several threads: on every field, two threads whose calls overlap (thread 0 takes the borrow,
then thread 1 tries) make thread 1 panic although a lone call would have returned. -/
theorem C08_refuted_concurrent (p : ℕ) (hp : 2 ≤ p) :
    (1, R.panic .alreadyBorrowed) ∈ (CacheWorld.init.run ⟨p⟩ [0, 1, 0]).log ∧
    ∃ v, Fp.calcSqrtPrecmp ⟨p⟩ = R.ok v := by
  obtain ⟨v, hv⟩ := calcSqrtPrecmp_total p hp
  refine ⟨?_, v, hv⟩
  simp [CacheWorld.run, CacheWorld.step, CacheWorld.init, CacheCell.new, CacheCell.borrowMut, hv,
    CacheCell.getOrInsertAndDrop]

/-- C08, several threads, exactly when a call fails: after any schedule, a thread that starts a call is turned away with a panic at once if
another thread is inside a call, and otherwise its call goes on to return the field's own constants (or the panic of computing them),
whatever the other threads do meanwhile. -/
theorem C08_concurrent_exact (f : Fp) (ts : List ℕ) (t : ℕ) (ht : (CacheWorld.init.run f ts).pc t = .idle) :
    ((∃ u, (CacheWorld.init.run f ts).pc u = .holding) →
      ((CacheWorld.init.run f ts).step f t).log = (t, R.panic .alreadyBorrowed) :: (CacheWorld.init.run f ts).log) ∧
    ((∀ u, (CacheWorld.init.run f ts).pc u = .idle) → ∀ us : List ℕ, t ∉ us →
      ((((CacheWorld.init.run f ts).step f t).run f us).step f t).log =
        (t, f.calcSqrtPrecmp) :: (((CacheWorld.init.run f ts).step f t).run f us).log ∧
      ∀ e ∈ (((CacheWorld.init.run f ts).step f t).run f us).log,
        e ∈ (CacheWorld.init.run f ts).log ∨ e.2 = R.panic .alreadyBorrowed) := by
  have h0 : WorldOK f CacheWorld.init := by
    refine ⟨?_, ⟨?_, ?_⟩, ?_, ?_⟩ <;> simp [CacheWorld.init, CacheCell.new]
  have hw := h0.run ts
  generalize CacheWorld.init.run f ts = w at hw ht ⊢
  refine ⟨fun hu => ?_, fun hall us hus => ?_⟩
  · have hb := hw.2.1.2 hu
    simp [CacheWorld.step, ht, CacheCell.borrowMut, hb]
  · have hb : w.cell.borrowed = false := by
      cases hb : w.cell.borrowed
      · rfl
      · obtain ⟨u, hu⟩ := hw.2.1.1 hb; rw [hall u] at hu; cases hu
    have hs : w.step f t = ⟨⟨w.cell.slot, true⟩, fun u => if u = t then .holding else w.pc u, w.log⟩ := by
      simp [CacheWorld.step, ht, CacheCell.borrowMut, hb]
    have inv : ∀ (us : List ℕ) (v : CacheWorld), t ∉ us → v.cell.borrowed = true → v.pc t = .holding →
        (∀ u, u ≠ t → v.pc u = .idle) → (v.run f us).cell = v.cell ∧ (v.run f us).pc = v.pc ∧
          ∀ e ∈ (v.run f us).log, e ∈ v.log ∨ e.2 = R.panic .alreadyBorrowed := by
      intro us
      induction us with
      | nil => exact fun v _ _ _ _ => ⟨rfl, rfl, fun e he => Or.inl he⟩
      | cons u us ih =>
        intro v hn hvb hvt hvu
        have hut : u ≠ t := fun h => hn (by simp [h])
        have hv : v.step f u = { v with log := (u, R.panic .alreadyBorrowed) :: v.log } := by
          simp [CacheWorld.step, hvu u hut, CacheCell.borrowMut, hvb]
        obtain ⟨a, b, c⟩ := ih (v.step f u) (fun h => hn (by simp [h])) (by rw [hv]; exact hvb) (by rw [hv]; exact hvt)
          (by rw [hv]; exact hvu)
        rw [CacheWorld.run]
        refine ⟨by rw [a, hv], by rw [b, hv], fun e he => ?_⟩
        rcases c e he with h | h
        · rw [hv] at h
          rcases List.mem_cons.1 h with rfl | h
          · exact Or.inr rfl
          · exact Or.inl h
        · exact Or.inr h
    obtain ⟨hc, hp, hl⟩ := inv us (w.step f t) hus (by rw [hs]) (by rw [hs]; simp) (fun u hu => by rw [hs]; simp [hu, hall u])
    refine ⟨?_, fun e he => ?_⟩
    · have hpt : ((w.step f t).run f us).pc t = .holding := by rw [hp, hs]; simp
      generalize (w.step f t).run f us = v at hc hpt ⊢
      have hslot : v.cell.slot = w.cell.slot := by rw [hc, hs]
      unfold CacheWorld.step
      simp only [hpt]
      cases hf : f.calcSqrtPrecmp with
      | panic e => rfl
      | ok c =>
        simp only [CacheCell.getOrInsertAndDrop, hslot]
        cases hs' : w.cell.slot with
        | none => rfl
        | some c' => have := hw.2.2.1 c' hs'; rw [hf] at this; rw [this]
    · have := hl e he
      rwa [hs] at this

/-- C08 is refuted for several threads also when the cache has been filled long before: after any schedule that leaves no thread inside
a call, overlapping calls of two threads make the second one panic. -/
theorem C08_refuted_warm (f : Fp) (ts : List ℕ) (h : ∀ u, (CacheWorld.init.run f ts).pc u = .idle) (t u : ℕ) (htu : u ≠ t) :
    (u, R.panic .alreadyBorrowed) ∈ (CacheWorld.init.run f (ts ++ [t, u])).log := by
  have hrun : ∀ (ts us : List ℕ) (w : CacheWorld), w.run f (ts ++ us) = (w.run f ts).run f us := by
    intro ts
    induction ts with
    | nil => intro us w; rfl
    | cons a ts ih => intro us w; exact ih us _
  rw [hrun]
  have h0 : WorldOK f CacheWorld.init := by
    refine ⟨?_, ⟨?_, ?_⟩, ?_, ?_⟩ <;> simp [CacheWorld.init, CacheCell.new]
  have hw := h0.run ts
  generalize CacheWorld.init.run f ts = w at hw h ⊢
  have hb : w.cell.borrowed = false := by
    cases hb : w.cell.borrowed
    · rfl
    · obtain ⟨u, hu⟩ := hw.2.1.1 hb; rw [h u] at hu; cases hu
  simp [CacheWorld.run, CacheWorld.step, h t, h u, CacheCell.borrowMut, hb, htu]

/-- The hypothesis is met after a completed call, when the cache is full. -/
example : (CacheWorld.init.run ⟨7⟩ [0, 0]).cell = ⟨some (.p3mod4 2), false⟩ ∧ ∀ u, (CacheWorld.init.run ⟨7⟩ [0, 0]).pc u = .idle := by
  refine ⟨by decide +kernel, fun u => ?_⟩
  have : Fp.calcSqrtPrecmp ⟨7⟩ = R.ok (.p3mod4 2) := by decide +kernel
  simp [CacheWorld.run, CacheWorld.step, CacheWorld.init, CacheCell.new, CacheCell.borrowMut, this, CacheCell.getOrInsertAndDrop]

/-- Non-vacuity: two calls on GF(13), the second one served from the cache. -/
example : sqrtHistory CacheCell.new [⟨3, ⟨13⟩⟩, ⟨4, ⟨13⟩⟩] =
    ([R.ok ⟨9, ⟨13⟩⟩, R.ok ⟨2, ⟨13⟩⟩], ⟨some (.p5mod8 2 ⟨5, ⟨13⟩⟩), false⟩) := by
  decide +kernel

example : (CacheWorld.init.run ⟨7⟩ [0, 0, 1, 1]).log = [(1, R.ok (.p3mod4 2)), (0, R.ok (.p3mod4 2))] := by
  decide +kernel

end Redox.Props
