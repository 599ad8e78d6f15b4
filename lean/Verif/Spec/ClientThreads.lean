import Verif.Spec.FieldClient
import Verif.Model.Threads

/-!
# Clients of a prime field as threads

The program of a client: all its steps but `sqrt` are its own; `sqrt` goes through the cache of the field.
-/

namespace Redox.Spec

/-- Continue with the value, or end with the panic. -/
def andThen {β α : Type} (r : R β) (k : β → Prog (R α)) : Prog (R α) :=
  match r with
  | .ok v => k v
  | .panic e => .done (.panic e)

/-- The client on elements of the field `f`, whose square roots use the cache of the allocation `j`. -/
def FieldClient.prog {α : Type} (f : Fp) (j : ℕ) : FieldClient α → (ℕ → FpElt) → Prog (R α)
  | .done x, _ => .done (R.ok x)
  | .ofInt i n k, s => andThen ((fpApi f).ofInt n) fun v => k.prog f j (Function.update s i v)
  | .ofText i bs k, s => andThen ((fpApi f).ofText bs) fun v => k.prog f j (Function.update s i v)
  | .ofBytesBE i bs k, s => andThen ((fpApi f).ofBytesBE bs) fun v => k.prog f j (Function.update s i v)
  | .ofBytesLE i bs k, s => andThen ((fpApi f).ofBytesLE bs) fun v => k.prog f j (Function.update s i v)
  | .add i a b k, s => andThen ((fpApi f).add (s a) (s b)) fun v => k.prog f j (Function.update s i v)
  | .sub i a b k, s => andThen ((fpApi f).sub (s a) (s b)) fun v => k.prog f j (Function.update s i v)
  | .mul i a b k, s => andThen ((fpApi f).mul (s a) (s b)) fun v => k.prog f j (Function.update s i v)
  | .div i a b k, s => andThen ((fpApi f).div (s a) (s b)) fun v => k.prog f j (Function.update s i v)
  | .neg i a k, s => andThen ((fpApi f).neg (s a)) fun v => k.prog f j (Function.update s i v)
  | .inv i a k, s => andThen ((fpApi f).inv (s a)) fun v => k.prog f j (Function.update s i v)
  | .pow i a n k, s => andThen ((fpApi f).pow (s a) n) fun v => k.prog f j (Function.update s i v)
  | .powInt i a n k, s => andThen ((fpApi f).powInt (s a) n) fun v => k.prog f j (Function.update s i v)
  | .sqrt i a k, s => .sqrt j (s a) fun r => andThen r fun v => k.prog f j (Function.update s i v)
  | .select i a b c k, s => k.prog f j (Function.update s i ((fpApi f).select (s a) (s b) c))
  | .eq a b k, s => (k ((fpApi f).eq (s a) (s b))).prog f j s
  | .isZero a k, s => (k ((fpApi f).isZero (s a))).prog f j s
  | .isOne a k, s => (k ((fpApi f).isOne (s a))).prog f j s
  | .sgn0 a k, s => (k ((fpApi f).sgn0 (s a))).prog f j s
  | .isSquare a k, s => andThen ((fpApi f).isSquare (s a)) fun v => (k v).prog f j s
  | .bytesBE a k, s => andThen ((fpApi f).bytesBE (s a)) fun v => (k v).prog f j s
  | .bytesLE a k, s => andThen ((fpApi f).bytesLE (s a)) fun v => (k v).prog f j s
  | .text a k, s => andThen ((fpApi f).text (s a)) fun v => (k v).prog f j s

end Redox.Spec
