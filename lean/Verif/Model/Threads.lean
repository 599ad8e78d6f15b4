import Verif.Model.Cache

/-!
# Threads that share fields

`Model/Cache.lean` has threads that call `get_sqrt_precmp` on one field over and over. Here the threads run arbitrary programs and there are
arbitrarily many fields. The caches (`sqrt_precmp`, src/primefield/mod.rs:20-23) are the only mutable state of the crate for prime fields and
curves over them, so a program is modelled by the square roots it asks for: everything between two square roots is a function of the values
obtained so far.
-/

namespace Redox

/-- A program of one thread that ends with a value in `α`. `sqrt i a k` calls `a.sqrt()` for an element whose field is the allocation
number `i` (clones of a field share an allocation) and goes on as `k` says for each outcome of the call; a program that does not catch
panics ends there. Auxiliary: a user program; the call is src/primefield/mod.rs:297-314. -/
inductive Prog (α : Type) where
  | done (x : α)
  | sqrt (i : Nat) (a : FpElt) (k : R FpElt → Prog α)

/-- What the program does when it runs alone and `sqrt` (src/primefield/mod.rs:297-314) uses no cache. -/
def Prog.alone {α : Type} : Prog α → α
  | .done x => x
  | .sqrt _ a k => (k a.sqrt).alone

/-- A thread: what remains to be run, and whether it is inside `get_sqrt_precmp` (src/primefield/mod.rs:256-262), holding the borrow. -/
structure Thread (α : Type) where
  prog : Prog α
  pc : ThreadPC

/-- The caches of all allocations (src/primefield/mod.rs:20-23), and all threads. -/
structure Threads (α : Type) where
  cell : Nat → CacheCell
  thread : Nat → Thread α

/-- Start: no field has been used for a square root yet; thread `t` is about to run `ps t`
(fresh caches: src/primefield/mod.rs:49). -/
def Threads.init {α : Type} (ps : Nat → Prog α) : Threads α := ⟨fun _ => CacheCell.new, fun t => ⟨ps t, .idle⟩⟩

/-- `f[i ↦ v]`. Auxiliary: models no line of /repo. -/
def upd {β : Type} (f : Nat → β) (i : Nat) (v : β) : Nat → β := fun j => if j = i then v else f j

/-- One step of thread `t`: nothing if it has ended, the attempt to take the borrow (src/primefield/mod.rs:258-259), or the rest of
`sqrt` (src/primefield/mod.rs:260-262, 297-314) up to the next call. A panic of `borrow_mut` or of `calc_sqrt_precmp` is the outcome of
the call. -/
def Threads.step {α : Type} (w : Threads α) (t : Nat) : Threads α :=
  match (w.thread t).prog, (w.thread t).pc with
  | .done _, _ => w
  | .sqrt i a k, .idle =>
    match (w.cell i).borrowMut with
    | .panic e => { w with thread := upd w.thread t ⟨k (.panic e), .idle⟩ }
    | .ok c => ⟨upd w.cell i c, upd w.thread t ⟨.sqrt i a k, .holding⟩⟩
  | .sqrt i a k, .holding =>
    match a.f.calcSqrtPrecmp with
    | .panic e => ⟨upd w.cell i { w.cell i with borrowed := false }, upd w.thread t ⟨k (.panic e), .idle⟩⟩
    | .ok v =>
      let (pre, c) := (w.cell i).getOrInsertAndDrop v
      ⟨upd w.cell i c, upd w.thread t ⟨k (a.sqrtWith pre), .idle⟩⟩

/-- The state after a schedule, the list of threads in the order in which they take steps. Auxiliary: the scheduler, no line of /repo. -/
def Threads.run {α : Type} (w : Threads α) : List Nat → Threads α
  | [] => w
  | t :: ts => (w.step t).run ts

end Redox
