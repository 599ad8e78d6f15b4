/-!
# Results with explicit panics

`R α` is the outcome of a Rust expression of type `α` that may panic.
-/

namespace Redox

/-- The reasons for which code in /repo panics; each constructor cites where (the macro is src/macros/mod.rs:7-15). -/
inductive Panic where
  /-- `ERR_BIN_OP` "elements of different fields" (src/primefield/mod.rs:361, src/quadraticfield/mod.rs:372) -/
  | differentFields
  /-- `ERR_EXP_SQR_OP` "exponent must be 2u32" (src/primefield/mod.rs:362) -/
  | expSqr
  /-- `ERR_EXP_INV_OP` "exponent must be -1i32" (src/primefield/mod.rs:363) -/
  | expInv
  /-- `ERR_INV_OP` "numerator must be 1u32" (src/primefield/mod.rs:364) -/
  | invNum
  /-- `ERR_BIN_OP` "elements of different groups" (src/weierstrass/scalar.rs:161) -/
  | differentGroups
  /-- `ERR_ECC_NEW` "not valid point" (src/weierstrass/curve.rs:196) -/
  | notValidPoint
  /-- `ERR_ADD_OP` "points of different curves" (src/weierstrass/point.rs:234) -/
  | differentCurves
  /-- `ERR_MUL_OP` "Scalar don't match with point" (src/weierstrass/point.rs:233) -/
  | scalarMismatch
  /-- "wrong input parameters" (src/weierstrass/sswu.rs:20, svdw.rs:21, sswuab0.rs:17, montgomery/elligator2.rs:19) -/
  | wrongParams
  /-- "Domain of rational map is incompatible with curve" (src/edwards/elligator2.rs:26) -/
  | domainMismatch
  /-- `unimplemented!()` / `todo!()` (src/primefield/mod.rs:311-312, 326, 338, src/quadraticfield/mod.rs:288, 336, 349,
  src/edwards/elligator2.rs:22) -/
  | unimplemented
  /-- `Option::unwrap` on `None`, `Result::unwrap` on `Err` (src/primefield/mod.rs:134, 151, src/weierstrass/curve.rs:183) -/
  | unwrapNone
  /-- slice or vector index out of range (src/weierstrass/curve.rs:101, src/weierstrass/scalar.rs:124) -/
  | indexOutOfRange
  /-- `&str` slice not on a character boundary (src/primefield/mod.rs:116) -/
  | charBoundary
  /-- integer overflow with overflow checks on (debug profile; src/weierstrass/scalar.rs:141) -/
  | overflow
  /-- num-bigint: division by zero / zero modulus (src/primefield/mod.rs:57, 233) -/
  | divByZero
  /-- num-bigint: negative exponent in `modpow` (src/weierstrass/scalar.rs:62) -/
  | negExponent
  /-- atomic_refcell: `borrow_mut` while already borrowed (src/primefield/mod.rs:259, src/quadraticfield/mod.rs:277) -/
  | alreadyBorrowed
  /-- not a Rust panic: a modelled loop exceeded its fuel. Shown unreachable. -/
  | diverge
deriving DecidableEq, Repr

/-- Outcome of a Rust expression: a value or a panic. Auxiliary: it stands for the control flow of every function of /repo that can
panic (e.g. src/primefield/mod.rs:170-181). -/
inductive R (α : Type u) where
  | ok (a : α)
  | panic (why : Panic)
deriving DecidableEq, Repr

namespace R

/-- Sequencing: a panic unwinds past the rest. Auxiliary: the evaluation order of Rust, no line of /repo. -/
def bind {α : Type u} {β : Type v} (x : R α) (f : α → R β) : R β :=
  match x with
  | ok a => f a
  | panic e => panic e

instance : Monad R where
  pure := ok
  bind := bind

/-- The outcome is a value. Auxiliary: used in statements, models no line of /repo. -/
def isOk {α : Type u} : R α → Bool
  | ok _ => true
  | panic _ => false

/-- A plain value used where an outcome is expected. -/
instance {α : Type u} : CoeHead α (R α) := ⟨ok⟩

@[simp] theorem ok_bind {α β : Type u} (a : α) (f : α → R β) : (R.ok a >>= f) = f a := rfl
@[simp] theorem panic_bind {α β : Type u} (e : Panic) (f : α → R β) : (R.panic e >>= f) = R.panic e := rfl
@[simp] theorem pure_eq {α : Type u} (a : α) : (pure a : R α) = R.ok a := rfl
@[simp] theorem map_ok {α β : Type u} (f : α → β) (a : α) : (f <$> R.ok a) = R.ok (f a) := rfl
@[simp] theorem isOk_ok {α : Type u} (a : α) : (R.ok a).isOk = true := rfl
@[simp] theorem isOk_panic {α : Type u} (e : Panic) : (R.panic e : R α).isOk = false := rfl

theorem bind_eq_ok {α β : Type u} {x : R α} {f : α → R β} {b : β} :
    (x >>= f) = R.ok b ↔ ∃ a, x = R.ok a ∧ f a = R.ok b := by
  cases x <;> simp

instance : LawfulMonad R := LawfulMonad.mk'
  (id_map := by intro α x; cases x <;> rfl)
  (pure_bind := by intros; rfl)
  (bind_assoc := by intro α β γ x f g; cases x <;> rfl)

end R

/-- Macro `do_if_eq!` (src/macros/mod.rs:7-15): run the body when the condition holds, else panic. -/
def doIfEq {α : Type u} (cond : Bool) (body : R α) (why : Panic) : R α :=
  if cond then body else R.panic why

@[simp] theorem doIfEq_true {α : Type u} (b : R α) (w : Panic) : doIfEq true b w = b := rfl
@[simp] theorem doIfEq_false {α : Type u} (b : R α) (w : Panic) : doIfEq false b w = R.panic w := rfl

/-- `&v[a..b]` on a slice: panics when the range is reversed or ends past the slice (used for src/weierstrass/curve.rs:101, 125,
src/montgomery/curve.rs:103, 127, src/quadraticfield/mod.rs:81-82, 94-95). -/
def slice {α : Type u} (v : List α) (a b : Nat) : R (List α) :=
  if a ≤ b ∧ b ≤ v.length then R.ok ((v.take b).drop a) else R.panic .indexOutOfRange

/-- `v[i]` (used for src/weierstrass/scalar.rs:124, src/weierstrass/curve.rs:99, src/montgomery/curve.rs:101, src/edwards/curve.rs:116). -/
def index {α : Type u} (v : List α) (i : Nat) : R α :=
  match v[i]? with
  | some a => R.ok a
  | none => R.panic .indexOutOfRange

/-- Cargo build profile: whether arithmetic overflow panics (debug) or wraps (release). Cargo.toml sets no profile, so both defaults
occur; the only overflow reachable in /repo is `l - 1usize` (src/weierstrass/scalar.rs:141 and its two copies). -/
inductive Profile where
  | debug
  | release
deriving DecidableEq, Repr

end Redox
