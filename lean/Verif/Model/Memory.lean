import Verif.Model.Cache

/-!
# Ownership of the parameters of a field (src/primefield/mod.rs:20-35, 256-262)

`Fp` is an `Arc<Params>`, and `Params` owns the square-root cache. Every element owns a clone of its field, so the cached
`sqrt_minus_one: FpElt` (line 251) is a handle of the very allocation it is stored in. This module keeps the reference count of one
allocation. Handles held by temporaries that are created and dropped inside one operation are not counted, except those of the value
computed by `calc_sqrt_precmp` and its clone, which may end up in the cache.
-/

namespace Redox

/-- One allocation made by `Fp::new` (src/primefield/mod.rs:20-35, 45-51): the strong count of the `Arc`, the cache, and whether the allocation has been freed. -/
structure FieldAlloc where
  strong : Nat
  slot : Option SqrtPrecmp
  freed : Bool
deriving DecidableEq, Repr

/-- The number of handles of the field inside a `SqrtPrecmp` (src/primefield/mod.rs:248-254): only `P5MOD8` has an element. -/
def SqrtPrecmp.handles : SqrtPrecmp → Nat
  | .p5mod8 _ _ => 1
  | _ => 0

namespace FieldAlloc

/-- `Fp::new` (src/primefield/mod.rs:45-51): one handle, owned by the caller. -/
def new : FieldAlloc := ⟨1, none, false⟩

/-- `n` times `Arc::clone` (derived `Clone` of `Fp`, src/primefield/mod.rs:34-35). -/
def inc (c : FieldAlloc) (n : Nat) : FieldAlloc := { c with strong := c.strong + n }

/-- `Drop` of an `Arc`, the field of `Fp` (src/primefield/mod.rs:34-35): the count goes down; the last handle frees the allocation and drops its content. -/
def dec1 (c : FieldAlloc) : FieldAlloc :=
  if c.strong = 1 then ⟨0, none, true⟩ else { c with strong := c.strong - 1 }

/-- `n` times `Drop` of an `Arc` (src/primefield/mod.rs:34-35). -/
def dec (c : FieldAlloc) : Nat → FieldAlloc
  | 0 => c
  | n + 1 => (c.dec1).dec n

/-- `get_or_insert(v)` (src/primefield/mod.rs:260): `v` is moved into an empty cache, otherwise it is dropped. The result is the
content of the cache. -/
def getOrInsert (c : FieldAlloc) (v : SqrtPrecmp) : SqrtPrecmp × FieldAlloc :=
  match c.slot with
  | some w => (w, c.dec v.handles)
  | none => (v, { c with slot := some v })

/-- What `Sqrt::sqrt` does to the allocation (src/primefield/mod.rs:256-262, 297-314): `calc_sqrt_precmp` makes a value with its handles,
`get_or_insert` keeps or drops it, the content is cloned, and the clone is dropped at the end of `sqrt` (also when the `match` panics). A
panic of `calc_sqrt_precmp` drops everything it made. -/
def sqrt (f : Fp) (c : FieldAlloc) : FieldAlloc :=
  match f.calcSqrtPrecmp with
  | .panic _ => c
  | .ok v =>
    let (w, c) := (c.inc v.handles).getOrInsert v
    let c := c.inc w.handles
    c.dec w.handles

end FieldAlloc

/-- What a program does with the handles of a field. `clone`: a clone of the field or of something that owns one (an element, a curve, a
point), which includes every result of an operation. `drop`: one owned handle goes out of scope. `sqrt`: a square root of an element
(src/primefield/mod.rs:297-314). -/
inductive FieldOp where
  | clone
  | drop
  | sqrt
deriving DecidableEq, Repr

/-- The effect of one operation (src/primefield/mod.rs:34-35, 297-314). -/
def FieldOp.apply (f : Fp) (c : FieldAlloc) : FieldOp → FieldAlloc
  | .clone => c.inc 1
  | .drop => c.dec 1
  | .sqrt => c.sqrt f

/-- The allocation after a sequence of operations. Auxiliary: a user program, no line of /repo. -/
def FieldAlloc.run (f : Fp) (c : FieldAlloc) : List FieldOp → FieldAlloc
  | [] => c
  | o :: os => (o.apply f c).run f os

end Redox
