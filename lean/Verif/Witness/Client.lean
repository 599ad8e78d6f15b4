import Verif.Witness.Base
import Verif.Props.ClientProps

/-! Cases that meet the hypotheses of C122. -/

set_option maxRecDepth 100000

namespace Redox.Witness

open Redox Redox.Spec Redox.Props Redox.Inst Redox.Props.Inst

/-- Sends its point to itself, decodes it, and adds the generator three times if that gave a point; reports whether the sum of the two is what `* 5` gives,
and the encoding. -/
def sampleClient : Client (Bool × List Byte) :=
  .encode 0 true fun bs => .decode 1 bs fun err =>
    match err with
    | some _ => .done (false, [])
    | none => .generator 2 (.mul 3 2 5 (.add 1 1 2 (.add 1 1 2 (.add 1 1 2 (.eq 1 3 fun b => .encode 1 true fun bs => .done (b, bs))))))

theorem wK_double : WDenotes p256_p p256 wK (wg + wg) := by
  obtain ⟨A, hA⟩ := wK_den
  have h := Commit.w_eq p256_p p256 wH_den hA
  rw [wK_eq, R.ok.injEq, eq_comm, decide_eq_true_iff] at h
  rwa [h]

theorem mK_double : MDenotes curve25519_p curve25519 mK (mg + mg) := by
  obtain ⟨A, hA⟩ := mK_den
  have h := Commit.m_eq curve25519_p curve25519 mH_den hA
  rw [mK_eq, R.ok.injEq, eq_comm, decide_eq_true_iff] at h
  rwa [h]

/-- Three times the generator minus the generator. -/
def eThree : Edwards.Point := okOr eG (do (← eG.mul .debug (← edwards25519.newScalar 3)).sub eG)

theorem eThree_eq : eH.eq eThree = R.ok true := by decide +kernel

theorem eThree_double : EDenotes curve25519_p edwards25519 eThree (eg + eg) := by
  obtain ⟨A, hA⟩ : ∃ A, EDenotes curve25519_p edwards25519 eThree A :=
    (C54_points curve25519_p edwards25519 eThree (by decide +kernel) ⟨by decide +kernel, by decide +kernel, by decide +kernel⟩
      ⟨by decide +kernel, by decide +kernel, by decide +kernel⟩ ⟨by decide +kernel, by decide +kernel, by decide +kernel⟩
      ⟨by decide +kernel, by decide +kernel, by decide +kernel⟩).2 ⟨by decide +kernel, by decide +kernel⟩
  have h := Commit.e_eq curve25519_p edwards25519 eH_den hA
  rw [eThree_eq, R.ok.injEq, eq_comm, decide_eq_true_iff] at h
  rwa [h]

/-- The client runs through all its steps on the doubles of the generators. -/
example : (do return (← sampleClient.run (wApi .debug p256) (fun _ => wH)).1) = R.ok true ∧
    (do return (← sampleClient.run (mApi .debug curve25519) (fun _ => mH)).1) = R.ok true ∧
    (do return (← sampleClient.run (eApi .debug edwards25519) (fun _ => eH)).1) = R.ok true := by
  refine ⟨?_, ?_, ?_⟩ <;> decide +kernel

example := C122_weierstrass p256_p p256 p256_valid (by decide +kernel) wG wg wG_eq wG_den

/-- Two representatives of the double of the generator, with different coordinates. -/
example : wH ≠ wK ∧ sampleClient.run (wApi .debug p256) (fun _ => wH) = sampleClient.run (wApi .debug p256) (fun _ => wK) :=
  ⟨by decide +kernel, C122_weierstrass_same p256_p p256 p256_valid (by decide +kernel) .debug sampleClient (fun _ => wH) (fun _ => wK) (fun _ => wg + wg)
    (fun _ => wH_den) (fun _ => wK_double)⟩

example := @C122_named_weierstrass _ (List.getElem_mem (l := Inst.weierstrassList) (n := 0) (by decide))

example := C122_montgomery curve25519_p curve25519 curve25519_valid (by decide +kernel) mG mg mG_eq mG_den

/-- Two representatives of the double of the generator, with different coordinates. -/
example : mH ≠ mK ∧ sampleClient.run (mApi .debug curve25519) (fun _ => mH) = sampleClient.run (mApi .debug curve25519) (fun _ => mK) :=
  ⟨by decide +kernel, C122_montgomery_same curve25519_p curve25519 curve25519_valid (by decide +kernel) .debug sampleClient (fun _ => mH) (fun _ => mK) (fun _ => mg + mg)
    (fun _ => mH_den) (fun _ => mK_double)⟩

example := @C122_named_montgomery _ (List.getElem_mem (l := Inst.montgomeryList) (n := 0) (by decide))

example := C122_edwards curve25519_p edwards25519 edwards25519_valid (by decide +kernel) eG eg eG_eq eG_den

/-- Two representatives of the double of the generator, with different coordinates. -/
example : eH ≠ eThree ∧ sampleClient.run (eApi .debug edwards25519) (fun _ => eH) = sampleClient.run (eApi .debug edwards25519) (fun _ => eThree) :=
  ⟨by decide +kernel, C122_edwards_same curve25519_p edwards25519 edwards25519_valid (by decide +kernel) .debug sampleClient (fun _ => eH) (fun _ => eThree) (fun _ => eg + eg)
    (fun _ => eH_den) (fun _ => eThree_double)⟩

example := @C122_named_edwards _ (List.getElem_mem (l := Inst.edwardsList) (n := 0) (by decide))

end Redox.Witness
