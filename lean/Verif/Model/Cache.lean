import Verif.Model.PrimeField

/-!
# The square-root cache of src/primefield/mod.rs:20-23, 256-262

Every `Fp::new` allocates one `AtomicRefCell<Option<SqrtPrecmp>>` shared by all clones of the field and all its
elements, possibly across threads. `get_sqrt_precmp` takes the exclusive borrow *before* evaluating
`calc_sqrt_precmp()` (method receivers are evaluated before arguments) and keeps it until it returns.
-/

namespace Redox

/-- The shared cell (field `sqrt_precmp`, src/primefield/mod.rs:20-23): content of the `Option`, and whether an exclusive borrow is live. -/
structure CacheCell where
  slot : Option SqrtPrecmp
  borrowed : Bool
deriving DecidableEq, Repr

/-- The cell made by `Fp::new` (src/primefield/mod.rs:49). -/
def CacheCell.new : CacheCell := ⟨none, false⟩

/-- `borrow_mut()` of atomic_refcell (called at src/primefield/mod.rs:258-259): panics when a borrow is live. -/
def CacheCell.borrowMut (c : CacheCell) : R CacheCell :=
  if c.borrowed then R.panic .alreadyBorrowed else R.ok { c with borrowed := true }

/-- `get_or_insert(v).clone()`, then the drop of the borrow at the end of the statement (src/primefield/mod.rs:260-262). -/
def CacheCell.getOrInsertAndDrop (c : CacheCell) (v : SqrtPrecmp) : SqrtPrecmp × CacheCell :=
  match c.slot with
  | some w => (w, { c with borrowed := false })
  | none => (v, ⟨some v, false⟩)

/-- `Fp::get_sqrt_precmp` (src/primefield/mod.rs:256-262), run without interruption: result and cell afterwards.
A panic in `calc_sqrt_precmp` unwinds and drops the borrow. -/
def Fp.getSqrtPrecmp (f : Fp) (c : CacheCell) : R SqrtPrecmp × CacheCell :=
  match c.borrowMut with
  | .panic e => (.panic e, c)
  | .ok c' =>
    match f.calcSqrtPrecmp with
    | .panic e => (.panic e, c)
    | .ok v => let (w, c'') := c'.getOrInsertAndDrop v; (.ok w, c'')

/-- `Sqrt::sqrt` (src/primefield/mod.rs:297-314) with the cache: result and cell afterwards. -/
def FpElt.sqrtCached (a : FpElt) (c : CacheCell) : R FpElt × CacheCell :=
  match a.f.getSqrtPrecmp c with
  | (.panic e, c') => (.panic e, c')
  | (.ok pre, c') => (a.sqrtWith pre, c')

/-! ### Several threads

Each thread calls `get_sqrt_precmp` over and over on the same field. One step of a thread is either the attempt to
take the borrow or the rest of the call; other threads can run between the two. -/

/-- Where a thread is inside `get_sqrt_precmp` (src/primefield/mod.rs:256-262). -/
inductive ThreadPC where
  /-- outside the call -/
  | idle
  /-- holds the borrow, `calc_sqrt_precmp` being evaluated -/
  | holding
deriving DecidableEq, Repr

/-- Global state: the shared cell, the position of each thread, and the results of all finished calls with the
thread that made them, most recent first. Auxiliary: the memory of a program with several threads in `get_sqrt_precmp`
(src/primefield/mod.rs:256-262). -/
structure CacheWorld where
  cell : CacheCell
  pc : Nat → ThreadPC
  log : List (Nat × R SqrtPrecmp)

/-- Start: fresh field (src/primefield/mod.rs:45-51), all threads outside. -/
def CacheWorld.init : CacheWorld := ⟨CacheCell.new, fun _ => .idle, []⟩

/-- One step of thread `t` (src/primefield/mod.rs:256-262). -/
def CacheWorld.step (f : Fp) (w : CacheWorld) (t : Nat) : CacheWorld :=
  match w.pc t with
  | .idle =>
    match w.cell.borrowMut with
    | .panic e => { w with log := (t, .panic e) :: w.log }
    | .ok c => { w with cell := c, pc := fun u => if u = t then .holding else w.pc u }
  | .holding =>
    match f.calcSqrtPrecmp with
    | .panic e =>
      { cell := { w.cell with borrowed := false },
        pc := fun u => if u = t then .idle else w.pc u, log := (t, .panic e) :: w.log }
    | .ok v =>
      let (r, c) := w.cell.getOrInsertAndDrop v
      { cell := c, pc := fun u => if u = t then .idle else w.pc u, log := (t, .ok r) :: w.log }

/-- The state after a schedule, the list of threads in the order in which they take steps, each inside `get_sqrt_precmp`
(src/primefield/mod.rs:256-262). -/
def CacheWorld.run (f : Fp) (w : CacheWorld) : List Nat → CacheWorld
  | [] => w
  | t :: ts => (w.step f t).run f ts

end Redox
