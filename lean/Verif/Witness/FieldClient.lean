import Verif.Witness.Base
import Verif.Props.FieldClientProps
import Verif.Props.ScalarClientProps
import Verif.Props.ClientThreadsProps

/-! Cases that meet the hypotheses of C123. -/

set_option maxRecDepth 100000

namespace Redox.Witness

open Redox Redox.Spec Redox.Props Redox.Inst Redox.Props.Inst

/-- Solves `x² + 2 x + c = 0` by the formula if it can, checks the solution, and reports it. -/
def sampleFieldClient : FieldClient (Option (Bool × List Byte)) :=
  .ofInt 1 1 (.sub 2 1 0 (.isSquare 2 fun b =>
    if b then .sqrt 3 2 (.sub 4 3 1 (.mul 5 4 4 (.add 5 5 4 (.add 5 5 4 (.add 5 5 0 (.isZero 5 fun ok => .text 4 fun t => .done (some (ok, t))))))))
    else .done none))

/-- Modulo 19 the number 1 - 7 is not a square and 1 - 3 = 6² is, so 5 is a solution for c = 3. -/
example : sampleFieldClient.run (fpApi (Fp.new 19)) (fun _ => ⟨7, ⟨19⟩⟩) = R.ok none ∧
    sampleFieldClient.run (fpApi (Fp.new 19)) (fun _ => ⟨3, ⟨19⟩⟩) = R.ok (some (true, ascii! "5")) := by decide +kernel

/-- The same outcome is the one over ℤ/19. -/
example : haveI : Fact (Nat.Prime 19) := ⟨by norm_num⟩
    ∃ root bytes text parse, (∀ a : ZMod 19, IsSquare a → root a * root a = a) ∧
      sampleFieldClient.run (zmodApi 19 root bytes text parse) (fun _ => 3) = R.ok (some (true, ascii! "5")) := by
  haveI : Fact (Nat.Prime 19) := ⟨by norm_num⟩
  obtain ⟨root, bytes, text, parse, hr, -, -, -, h⟩ := C123_prime_field 19 (by norm_num)
  refine ⟨root, bytes, text, parse, hr, ?_⟩
  have := h _ sampleFieldClient (fun _ => ⟨3, ⟨19⟩⟩) fun _ => ⟨rfl, by decide, by decide⟩
  have hv : (fun _ : ℕ => val 19 ⟨3, ⟨19⟩⟩) = fun _ => (3 : ZMod 19) := by funext; rfl
  rw [hv] at this
  rw [← this]
  decide +kernel

/-- Divides 1 by its scalar, checks the quotient, and reads the bits of the scalar from the highest one. -/
def sampleScalarClient : ScalarClient (Bool × List Bool × List Byte) :=
  .ofInt 1 (-100) (.div 2 1 0 (.mul 3 2 0 (.eq 3 1 fun b => .bytesBE 2 fun bs => .bitsDown 0 fun l => .done (b, l, bs))))

example : sampleScalarClient.run (scalarApi .release 101) (fun _ => ⟨6, 101⟩) = R.ok (true, [true, true, false], [17]) ∧
    sampleScalarClient.run (scalarApi .release 101) (fun _ => ⟨0, 101⟩) = R.ok (false, [], [0]) ∧
    sampleScalarClient.run (scalarApi .debug 101) (fun _ => ⟨0, 101⟩) = R.panic .overflow := by decide +kernel

/-- The same outcome is the one over ℤ/101. -/
example : haveI : Fact (Nat.Prime 101) := ⟨by norm_num⟩
    ∃ bits bytes text, sampleScalarClient.run (residueApi .debug 101 bits bytes text) (fun _ => 6) = R.ok (true, [true, true, false], [17]) := by
  haveI : Fact (Nat.Prime 101) := ⟨by norm_num⟩
  obtain ⟨bits, bytes, text, -, -, -, h⟩ := C123_scalars 101 (by norm_num) (by decide +kernel)
  refine ⟨bits, bytes, text, ?_⟩
  have := h .debug _ sampleScalarClient (fun _ => ⟨6, 101⟩) fun _ => ⟨rfl, by decide, by decide⟩
  have hv : (fun _ : ℕ => (((⟨6, 101⟩ : Scalar).k : ℤ) : ZMod 101)) = fun _ => (6 : ZMod 101) := by funext; rfl
  rw [hv] at this
  rw [← this]
  decide +kernel

/-- The value a program has ended with. -/
def ended {α : Type} : Prog α → Option α
  | .done x => some x
  | .sqrt _ _ _ => none

theorem ended_eq {α : Type} {P : Prog α} {x : α} (h : ended P = some x) : P = .done x := by
  cases P with
  | done y => rw [ended, Option.some.injEq] at h; rw [h]
  | sqrt i a k => cases h

/-- Threads that run the sample client, on the field `alloc t`. -/
def sampleThreads (alloc : ℕ → ℕ) : Threads (R (Option (Bool × List Byte))) :=
  Threads.init fun t => sampleFieldClient.prog (Fp.new 19) (alloc t) fun _ => ⟨3, ⟨19⟩⟩

/-- Two threads whose calls of `sqrt` overlap: with a field each both have the usual outcome; on a shared field the second one panics. If the calls do not
overlap, both have the usual outcome on a shared field too. -/
example :
    (((sampleThreads id).run [0, 1, 0, 1]).thread 0).prog = .done (R.ok (some (true, ascii! "5"))) ∧
    (((sampleThreads id).run [0, 1, 0, 1]).thread 1).prog = .done (R.ok (some (true, ascii! "5"))) ∧
    (((sampleThreads fun _ => 0).run [0, 1, 0]).thread 0).prog = .done (R.ok (some (true, ascii! "5"))) ∧
    (((sampleThreads fun _ => 0).run [0, 1, 0]).thread 1).prog = .done (R.panic .alreadyBorrowed) ∧
    (((sampleThreads fun _ => 0).run [0, 0, 1, 1]).thread 1).prog = .done (R.ok (some (true, ascii! "5"))) :=
  ⟨ended_eq (by decide +kernel), ended_eq (by decide +kernel), ended_eq (by decide +kernel), ended_eq (by decide +kernel), ended_eq (by decide +kernel)⟩

end Redox.Witness
