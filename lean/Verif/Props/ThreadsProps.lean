import Verif.Props.Cache
import Verif.Model.Threads

/-!
# C08: programs of several threads
-/

namespace Redox.Props.Thr

/-- The program uses only allocations allowed by `A`, with elements whose field is the one of the allocation (`fld i` was passed to the
`i`-th call of `Fp::new`). -/
inductive Uses {α : Type} (fld : ℕ → Fp) (A : ℕ → Prop) : Prog α → Prop
  | done (x : α) : Uses fld A (.done x)
  | sqrt (i : ℕ) (a : FpElt) (k : R FpElt → Prog α) : A i → a.f = fld i → Uses fld A (k a.sqrt) →
      Uses fld A (k (.panic .alreadyBorrowed)) → Uses fld A (.sqrt i a k)

/-- `x` is what the program ends with when each square root either gives its usual result or panics because the cache was borrowed. -/
inductive Outcome {α : Type} : Prog α → α → Prop
  | done (x : α) : Outcome (.done x) x
  | usual (i : ℕ) (a : FpElt) (k : R FpElt → Prog α) (x : α) : Outcome (k a.sqrt) x → Outcome (.sqrt i a k) x
  | turnedAway (i : ℕ) (a : FpElt) (k : R FpElt → Prog α) (x : α) :
      Outcome (k (.panic .alreadyBorrowed)) x → Outcome (.sqrt i a k) x

variable {α : Type}

theorem upd_same {β : Type} (f : ℕ → β) (i : ℕ) (v : β) : upd f i v i = v := by simp [upd]

theorem upd_ne {β : Type} (f : ℕ → β) {i j : ℕ} (v : β) (h : j ≠ i) : upd f i v j = f j := by simp [upd, h]

/-- The slot of a cell is empty or holds the constants of its field. -/
def SlotOK (f : Fp) (c : CacheCell) : Prop := ∀ v, c.slot = some v → f.calcSqrtPrecmp = R.ok v

/-- The result of the second half of a call. -/
theorem finish {f : Fp} {c : CacheCell} (hc : SlotOK f c) {a : FpElt} (ha : a.f = f) {v : SqrtPrecmp}
    (hv : a.f.calcSqrtPrecmp = R.ok v) :
    a.sqrtWith (c.getOrInsertAndDrop v).1 = a.sqrt ∧ SlotOK f (c.getOrInsertAndDrop v).2 ∧
      (c.getOrInsertAndDrop v).2.borrowed = false := by
  subst ha
  unfold CacheCell.getOrInsertAndDrop
  cases hs : c.slot with
  | none =>
    refine ⟨?_, ?_, rfl⟩
    · simp only [FpElt.sqrt, hv, R.ok_bind]
    · intro u hu
      simp only [Option.some.injEq] at hu
      rw [hv, hu]
  | some w =>
    have := hc w hs
    rw [hv, R.ok.injEq] at this
    subst this
    refine ⟨?_, fun u hu => ?_, rfl⟩
    · simp only [FpElt.sqrt, hv, R.ok_bind]
    · simp only [Option.some.injEq] at hu
      rw [hv, hu]

theorem sqrt_panic {a : FpElt} {e : Panic} (h : a.f.calcSqrtPrecmp = R.panic e) : a.sqrt = R.panic e := by
  simp only [FpElt.sqrt, h, R.panic_bind]

/-- Invariant for arbitrary sharing. -/
def Inv (fld : ℕ → Fp) (ps : ℕ → Prog α) (w : Threads α) : Prop :=
  (∀ i, SlotOK (fld i) (w.cell i)) ∧ (∀ t, Uses fld (fun _ => True) (w.thread t).prog) ∧
  ∀ t x, Outcome (w.thread t).prog x → Outcome (ps t) x

theorem Inv.step {fld : ℕ → Fp} {ps : ℕ → Prog α} {w : Threads α} (h : Inv fld ps w) (t : ℕ) : Inv fld ps (w.step t) := by
  obtain ⟨h1, h2, h3⟩ := h
  have key : ∀ (c : ℕ → CacheCell) (th : Thread α), (∀ i, SlotOK (fld i) (c i)) → Uses fld (fun _ => True) th.prog →
      (∀ x, Outcome th.prog x → Outcome (w.thread t).prog x) → Inv fld ps ⟨c, upd w.thread t th⟩ := by
    intro c th hc hu ho
    refine ⟨hc, fun u => ?_, fun u x hx => ?_⟩
    · by_cases hut : u = t
      · subst hut; simpa only [upd_same] using hu
      · simpa only [upd_ne _ _ hut] using h2 u
    · by_cases hut : u = t
      · subst hut
        simp only [upd_same] at hx
        exact h3 u x (ho x hx)
      · simp only [upd_ne _ _ hut] at hx
        exact h3 u x hx
  have hcell : ∀ (i : ℕ) (c : CacheCell), SlotOK (fld i) c → ∀ j, SlotOK (fld j) (upd w.cell i c j) := by
    intro i c hc j
    by_cases hj : j = i
    · subst hj; rwa [upd_same]
    · rw [upd_ne _ _ hj]; exact h1 j
  unfold Threads.step
  split
  · exact ⟨h1, h2, h3⟩
  · rename_i i a k hp hpc
    have hu : Uses fld (fun _ => True) (.sqrt i a k) := hp ▸ h2 t
    obtain _ | ⟨_, _, _, _, hf, hk, hk'⟩ := hu
    unfold CacheCell.borrowMut
    split_ifs with hb
    · exact key w.cell _ h1 hk' (fun x hx => by rw [hp]; exact .turnedAway i a k x hx)
    · refine key _ _ (hcell i _ (fun v hv => h1 i v hv)) (.sqrt i a k trivial hf hk hk') (fun x hx => by rw [hp]; exact hx)
  · rename_i i a k hp hpc
    have hu : Uses fld (fun _ => True) (.sqrt i a k) := hp ▸ h2 t
    obtain _ | ⟨_, _, _, _, hf, hk, hk'⟩ := hu
    split
    · rename_i e he
      refine key _ _ (hcell i _ (fun v hv => h1 i v hv)) (sqrt_panic he ▸ hk) (fun x hx => ?_)
      rw [hp]
      exact .usual i a k x (by rw [sqrt_panic he]; exact hx)
    · rename_i v hv
      obtain ⟨e1, e2, -⟩ := finish (h1 i) hf hv
      refine key _ _ (hcell i _ e2) (e1.symm ▸ hk) (fun x hx => ?_)
      rw [hp]
      exact .usual i a k x (by rw [← e1]; exact hx)

theorem Inv.run {fld : ℕ → Fp} {ps : ℕ → Prog α} : ∀ {w : Threads α} (_ : Inv fld ps w) (ts : List ℕ), Inv fld ps (w.run ts)
  | _, h, [] => h
  | _, h, t :: ts => Inv.run (h.step t) ts

/-- C08, programs, safety. Any number of threads run any programs on any fields, shared in any way, under any schedule. A thread that has
ended has a result that it would also have had alone if some of its square roots had panicked with the borrow panic: no other effect of one
thread on another is possible. -/
theorem _root_.Redox.Props.C08_programs_safety (fld : ℕ → Fp) (ps : ℕ → Prog α) (hps : ∀ t, Uses fld (fun _ => True) (ps t)) (ts : List ℕ)
    (t : ℕ) (x : α) (h : (((Threads.init ps).run ts).thread t).prog = .done x) : Outcome (ps t) x := by
  have h0 : Inv fld ps (Threads.init ps) :=
    ⟨fun i v hv => by simp [Threads.init, CacheCell.new] at hv, hps, fun t x hx => hx⟩
  exact (h0.run ts).2.2 t x (by rw [h]; exact .done x)

/-- Invariant for a thread `t` whose fields, those in `M`, no other thread uses. -/
def Inv1 (fld : ℕ → Fp) (M : ℕ → Prop) (t : ℕ) (ps : ℕ → Prog α) (w : Threads α) : Prop :=
  (∀ i, SlotOK (fld i) (w.cell i)) ∧ Uses fld M (w.thread t).prog ∧ (∀ u, u ≠ t → Uses fld (fun i => ¬ M i) (w.thread u).prog) ∧
  (∀ i, M i → (w.cell i).borrowed = true → (w.thread t).pc = .holding ∧ ∃ a k, (w.thread t).prog = .sqrt i a k) ∧
  (w.thread t).prog.alone = (ps t).alone

/-- A step of another thread. -/
theorem Inv1.other {fld : ℕ → Fp} {M : ℕ → Prop} {t : ℕ} {ps : ℕ → Prog α} {w : Threads α} (h : Inv1 fld M t ps w) {u : ℕ} (hut : u ≠ t) :
    Inv1 fld M t ps (w.step u) := by
  obtain ⟨h1, h2, h3, h4, h5⟩ := h
  have key : ∀ (i : ℕ) (c : CacheCell) (th : Thread α), ¬ M i → SlotOK (fld i) c → Uses fld (fun i => ¬ M i) th.prog →
      Inv1 fld M t ps ⟨upd w.cell i c, upd w.thread u th⟩ := by
    intro i c th hi hc hu
    refine ⟨fun j => ?_, ?_, fun v hv => ?_, fun j hj => ?_, ?_⟩ <;> dsimp only
    · by_cases hj : j = i
      · subst hj; rwa [upd_same]
      · rw [upd_ne _ _ hj]; exact h1 j
    · rw [upd_ne _ _ hut.symm]; exact h2
    · by_cases hvu : v = u
      · subst hvu; rwa [upd_same]
      · rw [upd_ne _ _ hvu]; exact h3 v hv
    · have hji : j ≠ i := by rintro rfl; exact hi hj
      simp only [upd_ne _ _ hji, upd_ne _ _ hut.symm]
      exact h4 j hj
    · rw [upd_ne _ _ hut.symm]; exact h5
  have same : ∀ i, upd w.cell i (w.cell i) = w.cell := by
    intro i; funext j
    by_cases hj : j = i
    · subst hj; rw [upd_same]
    · rw [upd_ne _ _ hj]
  unfold Threads.step
  split
  · exact ⟨h1, h2, h3, h4, h5⟩
  · rename_i i a k hp hpc
    have hu : Uses fld (fun i => ¬ M i) (.sqrt i a k) := hp ▸ h3 u hut
    obtain _ | ⟨_, _, _, hi, hf, hk, hk'⟩ := hu
    unfold CacheCell.borrowMut
    split_ifs with hb
    · have := key i (w.cell i) ⟨k (.panic .alreadyBorrowed), .idle⟩ hi (h1 i) hk'
      rwa [same] at this
    · exact key i _ _ hi (fun v hv => h1 i v hv) (.sqrt i a k hi hf hk hk')
  · rename_i i a k hp hpc
    have hu : Uses fld (fun i => ¬ M i) (.sqrt i a k) := hp ▸ h3 u hut
    obtain _ | ⟨_, _, _, hi, hf, hk, hk'⟩ := hu
    split
    · rename_i e he
      exact key i _ _ hi (fun v hv => h1 i v hv) (sqrt_panic he ▸ hk)
    · rename_i v hv
      obtain ⟨e1, e2, -⟩ := finish (h1 i) hf hv
      exact key i _ _ hi e2 (e1.symm ▸ hk)

/-- A step of the thread itself. -/
theorem Inv1.own {fld : ℕ → Fp} {M : ℕ → Prop} {t : ℕ} {ps : ℕ → Prog α} {w : Threads α} (h : Inv1 fld M t ps w) : Inv1 fld M t ps (w.step t) := by
  obtain ⟨h1, h2, h3, h4, h5⟩ := h
  have key : ∀ (i : ℕ) (c : CacheCell) (th : Thread α), SlotOK (fld i) c → Uses fld M th.prog →
      (∀ j, M j → (upd w.cell i c j).borrowed = true → th.pc = .holding ∧ ∃ a k, th.prog = .sqrt j a k) →
      th.prog.alone = (w.thread t).prog.alone → Inv1 fld M t ps ⟨upd w.cell i c, upd w.thread t th⟩ := by
    intro i c th hc hu hb ha
    refine ⟨fun j => ?_, ?_, fun v hv => ?_, fun j hj hbj => ?_, ?_⟩ <;> dsimp only
    · by_cases hj : j = i
      · subst hj; rwa [upd_same]
      · rw [upd_ne _ _ hj]; exact h1 j
    · rwa [upd_same]
    · rw [upd_ne _ _ hv]; exact h3 v hv
    · simp only [upd_same]; exact hb j hj hbj
    · rw [upd_same, ha, h5]
  unfold Threads.step
  split
  · exact ⟨h1, h2, h3, h4, h5⟩
  · rename_i i a k hp hpc
    have hu : Uses fld M (.sqrt i a k) := hp ▸ h2
    obtain _ | ⟨_, _, _, hi, hf, hk, hk'⟩ := hu
    have hb : ∀ j, M j → (w.cell j).borrowed = false := by
      intro j hj
      cases hb : (w.cell j).borrowed
      · rfl
      · have := (h4 j hj hb).1; rw [hpc] at this; cases this
    simp only [CacheCell.borrowMut, hb i hi, Bool.false_eq_true, if_false]
    refine key i _ _ (fun v hv => h1 i v hv) (.sqrt i a k hi hf hk hk') (fun j hj hbj => ?_) (by rw [hp])
    by_cases hji : j = i
    · subst hji; exact ⟨rfl, a, k, rfl⟩
    · rw [upd_ne _ _ hji, hb j hj] at hbj; cases hbj
  · rename_i i a k hp hpc
    have hu : Uses fld M (.sqrt i a k) := hp ▸ h2
    obtain _ | ⟨_, _, _, hi, hf, hk, hk'⟩ := hu
    have hone : ∀ j, M j → j ≠ i → (w.cell j).borrowed = false := by
      intro j hj hji
      cases hb : (w.cell j).borrowed
      · rfl
      · obtain ⟨-, a', k', hp'⟩ := h4 j hj hb
        rw [hp, Prog.sqrt.injEq] at hp'
        exact absurd hp'.1.symm hji
    have fin : ∀ (c : CacheCell) (r : R FpElt), SlotOK (fld i) c → c.borrowed = false → r = a.sqrt →
        Inv1 fld M t ps ⟨upd w.cell i c, upd w.thread t ⟨k r, .idle⟩⟩ := by
      intro c r hc hcb hr
      refine key i _ _ hc (hr.symm ▸ hk) (fun j hj hbj => ?_) ?_
      · by_cases hji : j = i
        · subst hji; rw [upd_same, hcb] at hbj; cases hbj
        · rw [upd_ne _ _ hji, hone j hj hji] at hbj; cases hbj
      · rw [hp, hr]; rfl
    split
    · rename_i e he
      exact fin _ _ (fun v hv => h1 i v hv) rfl (sqrt_panic he).symm
    · rename_i v hv
      obtain ⟨e1, e2, e3⟩ := finish (h1 i) hf hv
      exact fin _ _ e2 e3 e1

theorem Inv1.run {fld : ℕ → Fp} {M : ℕ → Prop} {t : ℕ} {ps : ℕ → Prog α} :
    ∀ {w : Threads α} (_ : Inv1 fld M t ps w) (ts : List ℕ), Inv1 fld M t ps (w.run ts)
  | _, h, [] => h
  | w, h, u :: ts => by
    by_cases hut : u = t
    · subst hut; exact Inv1.run h.own ts
    · exact Inv1.run (h.other hut) ts

/-- C08, programs: any number of threads run any programs under any schedule. If no field (allocation) on which thread `t` takes square roots is used for
square roots by another thread, the result of `t`, if it has ended, is the one it has when it runs alone without any cache, however the other threads share
their fields. -/
theorem _root_.Redox.Props.C08_programs_private (fld : ℕ → Fp) (M : ℕ → Prop) (ps : ℕ → Prog α) (t : ℕ) (ht : Uses fld M (ps t))
    (hps : ∀ u, u ≠ t → Uses fld (fun i => ¬ M i) (ps u)) (ts : List ℕ) (x : α)
    (h : (((Threads.init ps).run ts).thread t).prog = .done x) : x = (ps t).alone := by
  have h0 : Inv1 fld M t ps (Threads.init ps) :=
    ⟨fun i v hv => by simp [Threads.init, CacheCell.new] at hv, ht, hps, fun i _ hi => by simp [Threads.init, CacheCell.new] at hi, rfl⟩
  have := (h0.run ts).2.2.2.2
  rwa [h] at this

theorem Uses.mono {fld : ℕ → Fp} {A B : ℕ → Prop} (hAB : ∀ i, A i → B i) {P : Prog α} (h : Uses fld A P) : Uses fld B P := by
  induction h with
  | done x => exact .done x
  | sqrt i a k hi hf _ _ ih ih' => exact .sqrt i a k (hAB i hi) hf ih ih'

/-- C08, programs, partial: any number of threads run any programs under any schedule, and no field (allocation) is used for square roots by
more than one thread. Then every thread that has ended has the result it has when it runs alone without any cache. Missing: fields shared by
threads that take square roots, where the claim is false (`C08_refuted_concurrent`). -/
theorem _root_.Redox.Props.C08_programs_partial (fld : ℕ → Fp) (owner : ℕ → ℕ) (ps : ℕ → Prog α)
    (hps : ∀ t, Uses fld (fun i => owner i = t) (ps t)) (ts : List ℕ) (t : ℕ) (x : α)
    (h : (((Threads.init ps).run ts).thread t).prog = .done x) : x = (ps t).alone :=
  C08_programs_private fld (fun i => owner i = t) ps t (hps t) (fun u hu => (hps u).mono fun i hi (hit : owner i = t) => hu (hi.symm.trans hit)) ts x h

/-- The states along an infinite schedule. -/
def along (w : Threads α) (s : ℕ → ℕ) : ℕ → Threads α
  | 0 => w
  | n + 1 => (along w s n).step (s n)

theorem step_other (w : Threads α) {t u : ℕ} (h : t ≠ u) : (w.step u).thread t = w.thread t := by
  unfold Threads.step
  split
  · rfl
  · unfold CacheCell.borrowMut
    split_ifs <;> simp only [upd_ne _ _ h]
  · split <;> simp only [upd_ne _ _ h]

theorem along_add (w : Threads α) (s : ℕ → ℕ) (m : ℕ) : ∀ n, along w s (m + n) = along (along w s m) (fun j => s (m + j)) n
  | 0 => rfl
  | n + 1 => by rw [← Nat.add_assoc, along, along_add w s m n, along]

/-- The next step of a thread that is scheduled again and again. -/
theorem next_step (w : Threads α) (s : ℕ → ℕ) (t : ℕ) (hs : ∀ n, ∃ m, n ≤ m ∧ s m = t) :
    ∃ n, s n = t ∧ (along w s n).thread t = w.thread t := by
  have hex : ∃ n, s n = t := by obtain ⟨m, -, hm⟩ := hs 0; exact ⟨m, hm⟩
  classical
  refine ⟨Nat.find hex, Nat.find_spec hex, ?_⟩
  have : ∀ n, n ≤ Nat.find hex → (along w s n).thread t = w.thread t := by
    intro n
    induction n with
    | zero => intro _; rfl
    | succ n ih =>
      intro hn
      rw [along, step_other _ (fun h => Nat.find_min hex (by omega : n < _) h.symm), ih (by omega)]
  exact this _ le_rfl

theorem shift {s : ℕ → ℕ} {t : ℕ} (hs : ∀ n, ∃ m, n ≤ m ∧ s m = t) (k : ℕ) : ∀ n, ∃ m, n ≤ m ∧ s (k + m) = t := by
  intro n
  obtain ⟨m, h1, h2⟩ := hs (k + n)
  exact ⟨m - k, by omega, by rwa [Nat.add_sub_cancel' (by omega)]⟩

theorem terminates (t : ℕ) (p : Prog α) : ∀ (w : Threads α) (s : ℕ → ℕ), (w.thread t).prog = p →
    (∀ n, ∃ m, n ≤ m ∧ s m = t) → ∃ n x, ((along w s n).thread t).prog = .done x := by
  induction p with
  | done x => exact fun w s hp _ => ⟨0, x, hp⟩
  | sqrt i a k ih =>
    have finishIt : ∀ (w : Threads α) (s : ℕ → ℕ), (w.thread t).prog = .sqrt i a k → (w.thread t).pc = .holding →
        (∀ n, ∃ m, n ≤ m ∧ s m = t) → ∃ n x, ((along w s n).thread t).prog = .done x := by
      intro w s hp hpc hs
      obtain ⟨n, hn, hth⟩ := next_step w s t hs
      have : ∃ r, ((along w s (n + 1)).thread t).prog = k r := by
        rw [along, hn]
        rw [← hth] at hp hpc
        generalize along w s n = v at hp hpc
        unfold Threads.step
        simp only [hp, hpc]
        split <;> (simp only [upd_same]; exact ⟨_, rfl⟩)
      obtain ⟨r, hr⟩ := this
      obtain ⟨m, x, hx⟩ := ih r _ _ hr (shift hs (n + 1))
      exact ⟨n + 1 + m, x, by rw [along_add]; exact hx⟩
    intro w s hp hs
    cases hpc : (w.thread t).pc with
    | holding => exact finishIt w s hp hpc hs
    | idle =>
      obtain ⟨n, hn, hth⟩ := next_step w s t hs
      have : (∃ r, ((along w s (n + 1)).thread t).prog = k r) ∨
          (((along w s (n + 1)).thread t).prog = .sqrt i a k ∧ ((along w s (n + 1)).thread t).pc = .holding) := by
        rw [along, hn]
        rw [← hth] at hp hpc
        generalize along w s n = v at hp hpc
        unfold Threads.step
        simp only [hp, hpc]
        split
        · left; simp only [upd_same]; exact ⟨_, rfl⟩
        · exact Or.inr (by simp only [upd_same, and_self])
      rcases this with ⟨r, hr⟩ | ⟨h1, h2⟩
      · obtain ⟨m, x, hx⟩ := ih r _ _ hr (shift hs (n + 1))
        exact ⟨n + 1 + m, x, by rw [along_add]; exact hx⟩
      · obtain ⟨m, x, hx⟩ := finishIt _ _ h1 h2 (shift hs (n + 1))
        exact ⟨n + 1 + m, x, by rw [along_add]; exact hx⟩

/-- C08, programs, progress: no thread ever waits for another. In every infinite schedule a thread that is scheduled again and again ends,
also if the other threads stop for ever inside a call. -/
theorem _root_.Redox.Props.C08_programs_progress (ps : ℕ → Prog α) (s : ℕ → ℕ) (t : ℕ) (hs : ∀ n, ∃ m, n ≤ m ∧ s m = t) :
    ∃ n x, ((along (Threads.init ps) s n).thread t).prog = .done x :=
  terminates t (ps t) _ s rfl hs

/-- A thread that takes square roots of 3 and of the result, in allocation `i` of GF(13), and ends with the list of outcomes. -/
def demo (i : ℕ) : Prog (List (R FpElt)) :=
  .sqrt i ⟨3, ⟨13⟩⟩ fun r => .sqrt i ⟨4, ⟨13⟩⟩ fun r' => .done [r, r']

/-- Non-vacuity of `C08_programs_partial`: two threads with a field each, interleaved. -/
example : (∀ t, Uses (fun _ => ⟨13⟩) (fun i => i = t) (demo t)) ∧
    (((Threads.init demo).run [0, 1, 0, 1, 1, 0, 0, 1]).thread 1).prog = .done [R.ok ⟨9, ⟨13⟩⟩, R.ok ⟨2, ⟨13⟩⟩] := by
  refine ⟨fun t => .sqrt _ _ _ rfl rfl (.sqrt _ _ _ rfl rfl (.done _) (.done _)) (.sqrt _ _ _ rfl rfl (.done _) (.done _)), ?_⟩
  have h1 : Fp.calcSqrtPrecmp ⟨13⟩ = R.ok (.p5mod8 2 ⟨5, ⟨13⟩⟩) := by decide +kernel
  have h2 : FpElt.sqrtWith ⟨3, ⟨13⟩⟩ (.p5mod8 2 ⟨5, ⟨13⟩⟩) = R.ok ⟨9, ⟨13⟩⟩ := by decide +kernel
  have h3 : FpElt.sqrtWith ⟨4, ⟨13⟩⟩ (.p5mod8 2 ⟨5, ⟨13⟩⟩) = R.ok ⟨2, ⟨13⟩⟩ := by decide +kernel
  simp [Threads.run, Threads.step, Threads.init, demo, upd, CacheCell.new, CacheCell.borrowMut, CacheCell.getOrInsertAndDrop, h1, h2, h3]

/-- The same two threads on one shared field: the second thread is turned away once, and afterwards is served from the cache. -/
example : Uses (fun _ => ⟨13⟩) (fun _ => True) (demo 0) ∧
    (((Threads.init fun _ => demo 0).run [0, 1, 0, 1, 1]).thread 1).prog = .done [R.panic .alreadyBorrowed, R.ok ⟨2, ⟨13⟩⟩] := by
  refine ⟨.sqrt _ _ _ trivial rfl (.sqrt _ _ _ trivial rfl (.done _) (.done _)) (.sqrt _ _ _ trivial rfl (.done _) (.done _)), ?_⟩
  have h1 : Fp.calcSqrtPrecmp ⟨13⟩ = R.ok (.p5mod8 2 ⟨5, ⟨13⟩⟩) := by decide +kernel
  have h2 : FpElt.sqrtWith ⟨3, ⟨13⟩⟩ (.p5mod8 2 ⟨5, ⟨13⟩⟩) = R.ok ⟨9, ⟨13⟩⟩ := by decide +kernel
  have h3 : FpElt.sqrtWith ⟨4, ⟨13⟩⟩ (.p5mod8 2 ⟨5, ⟨13⟩⟩) = R.ok ⟨2, ⟨13⟩⟩ := by decide +kernel
  simp [Threads.run, Threads.step, Threads.init, demo, upd, CacheCell.new, CacheCell.borrowMut, CacheCell.getOrInsertAndDrop, h1, h2, h3]

end Redox.Props.Thr
