import Verif.Model.QuadField
import Verif.Model.Cache

/-!
# The square-root cache of src/quadraticfield/mod.rs:19-22, 273-280

Every `Fp2::new` allocates one `AtomicRefCell<Option<SqrtPrecmp>>` of its own, besides the one of its base field. `get_sqrt_precmp` is
written as in the prime field: the exclusive borrow is taken before `calc_sqrt_precmp()` is evaluated and kept until the call returns.
Here `calc_sqrt_precmp` can panic (`unimplemented!()`); unwinding drops the borrow. `Fp2Elt::sqrt` does not use the cache of the base
field.
-/

namespace Redox

/-- The constants `P3MOD4 { c1, c2 }` (src/quadraticfield/mod.rs:268-271), the only variant. -/
abbrev SqrtPrecmp2 := Int × Int

/-- The shared cell (field `sqrt_precmp`, src/quadraticfield/mod.rs:19-22): content of the `Option`, and whether an exclusive borrow is live. -/
structure QuadCell where
  slot : Option SqrtPrecmp2
  borrowed : Bool
deriving DecidableEq, Repr

/-- The cell made by `Fp2::new` (src/quadraticfield/mod.rs:46). -/
def QuadCell.new : QuadCell := ⟨none, false⟩

/-- `borrow_mut()` of atomic_refcell (called at src/quadraticfield/mod.rs:275-277): panics when a borrow is live. -/
def QuadCell.borrowMut (c : QuadCell) : R QuadCell :=
  if c.borrowed then R.panic .alreadyBorrowed else R.ok { c with borrowed := true }

/-- `get_or_insert(v).clone()`, then the drop of the borrow at the end of the statement (src/quadraticfield/mod.rs:278-280). -/
def QuadCell.getOrInsertAndDrop (c : QuadCell) (v : SqrtPrecmp2) : SqrtPrecmp2 × QuadCell :=
  match c.slot with
  | some w => (w, { c with borrowed := false })
  | none => (v, ⟨some v, false⟩)

/-- `Fp2::get_sqrt_precmp` (src/quadraticfield/mod.rs:273-280), run without interruption: result and cell afterwards.
A panic in `calc_sqrt_precmp` unwinds and drops the borrow. -/
def Fp2.getSqrtPrecmp (f : Fp2) (c : QuadCell) : R SqrtPrecmp2 × QuadCell :=
  match c.borrowMut with
  | .panic e => (.panic e, c)
  | .ok c' =>
    match f.calcSqrtPrecmp with
    | .panic e => (.panic e, c)
    | .ok v => let (w, c'') := c'.getOrInsertAndDrop v; (.ok w, c'')

/-- The body of `sqrt` (src/quadraticfield/mod.rs:305-320) after the constants have been fetched. -/
def Fp2Elt.sqrtWith (a : Fp2Elt) (pre : SqrtPrecmp2) : R Fp2Elt := do
  let (c1, c2) := pre
  let a1 ← a.powInt c1
  let a1a ← a1.mul a
  let alpha ← a1.mul a1a
  let x0 := a1a
  let t ← alpha.add (← a.f.one)
  if t.isZero then
    let i := a.elt (← a.f.base.fromPrim 0) (← a.f.base.fromPrim 1)
    x0.mul i
  else
    let par ← alpha.add (← a.f.one)
    let b ← par.powInt c2
    x0.mul b

/-- `Sqrt::sqrt` (src/quadraticfield/mod.rs:303-322) with the cache: result and cell afterwards. -/
def Fp2Elt.sqrtCached (a : Fp2Elt) (c : QuadCell) : R Fp2Elt × QuadCell :=
  match a.f.getSqrtPrecmp c with
  | (.panic e, c') => (.panic e, c')
  | (.ok pre, c') => (a.sqrtWith pre, c')

/-! ### Several threads

Each thread calls `get_sqrt_precmp` over and over on the same field. One step of a thread is either the attempt to
take the borrow or the rest of the call; other threads can run between the two. -/

/-- Global state: the shared cell, the position of each thread, and the results of all finished calls with the
thread that made them, most recent first. Auxiliary: the memory of a program with several threads in `get_sqrt_precmp`
(src/quadraticfield/mod.rs:273-280). -/
structure QuadWorld where
  cell : QuadCell
  pc : Nat → ThreadPC
  log : List (Nat × R SqrtPrecmp2)

/-- Start: fresh field (src/quadraticfield/mod.rs:44-48), all threads outside. -/
def QuadWorld.init : QuadWorld := ⟨QuadCell.new, fun _ => .idle, []⟩

/-- One step of thread `t` (src/quadraticfield/mod.rs:273-280). -/
def QuadWorld.step (f : Fp2) (w : QuadWorld) (t : Nat) : QuadWorld :=
  match w.pc t with
  | .idle =>
    match w.cell.borrowMut with
    | .panic e => { w with log := (t, .panic e) :: w.log }
    | .ok c => { w with cell := c, pc := fun u => if u = t then .holding else w.pc u }
  | .holding =>
    match f.calcSqrtPrecmp with
    | .panic e =>
      { cell := { w.cell with borrowed := false },
        pc := fun u => if u = t then .idle else w.pc u, log := (t, .panic e) :: w.log }
    | .ok v =>
      let (r, c) := w.cell.getOrInsertAndDrop v
      { cell := c, pc := fun u => if u = t then .idle else w.pc u, log := (t, .ok r) :: w.log }

/-- The state after a schedule, the list of threads in the order in which they take steps, each inside `get_sqrt_precmp`
(src/quadraticfield/mod.rs:273-280). -/
def QuadWorld.run (f : Fp2) (w : QuadWorld) : List Nat → QuadWorld
  | [] => w
  | t :: ts => (w.step f t).run f ts

end Redox
