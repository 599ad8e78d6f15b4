import Verif.Props.TextProps
import Verif.Witness.Base

/-!
# Texts of built-in curves and of their generators
-/

set_option maxRecDepth 100000

namespace Redox.Witness

open Redox Redox.Spec Redox.Props Redox.Inst Redox.Props.Inst

theorem canon_check {p : ℕ} {x : FpElt} (h : (decide (x.f = ⟨p⟩) && decide (0 ≤ x.n) && decide (x.n < p)) = true) : Canon p x := by
  simp only [Bool.and_eq_true, decide_eq_true_eq] at h
  exact ⟨h.1.1, h.1.2, h.2⟩

example := (C64_text_curve p256_p (by decide +kernel)).1 p256 (canon_check (by decide +kernel)) (canon_check (by decide +kernel))

example := (C64_text_point p256_p (by decide +kernel)).1 wG (canon_check (by decide +kernel)) (canon_check (by decide +kernel))
  (canon_check (by decide +kernel))

/-- Curve25519 prints the equation, `486662` and `1`. -/
example : curve25519.display =
    R.ok (ascii! "Montgomery Curve by^2=x^3+ax^2+x" ++ [10] ++ ascii! "a: 486662" ++ [10] ++ ascii! "b: 1") := by
  rw [(C64_text_curve curve25519_p (by decide +kernel)).2.1 curve25519 (canon_check (by decide +kernel)) (canon_check (by decide +kernel))]
  decide +kernel

/-- The generator of Curve25519 prints the coordinates of its parameters (src/instances/mont.rs). -/
example : mG.display = R.ok ([10] ++ ascii! "x: 9" ++ [10] ++
    ascii! "y: 43114425171068552920764898935933967039370386198203806730763910166200978582548" ++ [10] ++ ascii! "z: 1") := by
  rw [(C64_text_point curve25519_p (by decide +kernel)).2.1 mG (canon_check (by decide +kernel)) (canon_check (by decide +kernel))
    (canon_check (by decide +kernel))]
  decide +kernel

example := (C64_text_curve curve25519_p (by decide +kernel)).2.2 edwards25519 (canon_check (by decide +kernel)) (canon_check (by decide +kernel))

example := (C64_text_point curve25519_p (by decide +kernel)).2.2 eG (canon_check (by decide +kernel)) (canon_check (by decide +kernel))
  (canon_check (by decide +kernel)) (canon_check (by decide +kernel))

example := C63_text p256.r (by decide +kernel) (-5)

end Redox.Witness
