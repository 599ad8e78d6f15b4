import Verif.Props.Received
import Verif.Witness.Base

/-!
# C105 at concrete byte strings

The strings are the encodings of the generators of P-256, curve25519 and edwards25519 and of their triples.
-/

set_option maxRecDepth 100000

namespace Redox.Witness

open Redox Redox.Spec Redox.Props Redox.Inst Redox.Props.Inst

def wIn : List Byte :=
  [3, 107, 23, 209, 242, 225, 44, 66, 71, 248, 188, 230, 229, 99, 164, 64, 242, 119, 3, 125, 129, 45, 235, 51, 160, 244,
   161, 57, 69, 216, 152, 194, 150]

def wOut : List Byte :=
  [4, 94, 203, 228, 209, 166, 51, 10, 68, 200, 247, 239, 149, 29, 75, 241, 101, 230, 198, 183, 33, 239, 173, 169, 133,
   251, 65, 102, 27, 198, 231, 253, 108, 135, 52, 100, 12, 73, 152, 255, 126, 55, 75, 6, 206, 26, 100, 162, 236, 216,
   42, 176, 54, 56, 79, 184, 61, 154, 121, 177, 39, 162, 125, 80, 50]

theorem wRun : wSecret .debug p256 3 false wIn = R.ok wOut := by decide +kernel

theorem wRunCheck : wCheck .debug p256 4 1 wIn wOut = R.ok true ∧ wCheck .debug p256 5 1 wIn wOut = R.ok false := by
  constructor <;> decide +kernel

theorem wRead {buf : List Byte} {b : Bool} (h : (Flow.unwrap (p256.decode buf)).isOk = b) (hb : b = true) :
    ∃ x y, ∃ _ : (wGroup p256_p p256).Nonsingular x y, ∃ c, IsSec1 p256.f.sizeBytes x y c buf := by
  rw [hb] at h
  have h' := unwrap_eq_ok.1 (okGet_eq _ h)
  obtain ⟨x, y, hn, c, h1, -⟩ := (C105_weierstrass_decode _ _ p256_valid.curve p256_valid.complete (by decide +kernel) buf).1 _ h'
  exact ⟨x, y, hn, c, h1⟩

example := (C105_weierstrass_secret_partial _ _ p256_valid (by decide +kernel) .debug 3 (Or.inl (by decide +kernel)) false wIn wOut).1 wRun

example := (C105_weierstrass_prime _ _ p256_valid (card_of_valid p256_valid (by decide +kernel)) (by decide +kernel) .debug 3 (by decide +kernel) false
  wIn wOut).1 wRun

example := (C105_weierstrass_check_partial _ _ p256_valid (by decide +kernel) .debug 4 1 (Or.inl ⟨by decide +kernel, by decide +kernel⟩) _ _ wG_eq wG_den
  wIn wOut true).1 wRunCheck.1

example := (C105_weierstrass_check_partial _ _ p256_valid (by decide +kernel) .debug 5 1 (Or.inl ⟨by decide +kernel, by decide +kernel⟩) _ _ wG_eq wG_den
  wIn wOut false).1 wRunCheck.2

example : wCheck .debug p256 p256.getOrder 7 wIn wOut = R.panic .overflow := by
  obtain ⟨x, y, hn, c, h1⟩ := wRead (buf := wIn) rfl (by decide +kernel)
  obtain ⟨x', y', hn', c', h2⟩ := wRead (buf := wOut) rfl (by decide +kernel)
  exact C105_weierstrass_refuted_zero _ _ p256_valid (by decide +kernel) _ 7 dvd_rfl _ _ x y hn c x' y' hn' c' h1 h2

/-- A string that is no encoding: the wrong tag. -/
example : ∀ out, wSecret .debug p256 3 false (5 :: wIn.tail) ≠ R.ok out := by
  intro out h
  have : (wSecret .debug p256 3 false (5 :: wIn.tail)).isOk = false := by decide +kernel
  rw [h] at this
  cases this

def mIn : List Byte := [2, 0, 0, 0, 0, 0, 0, 0, 0, 0, 0, 0, 0, 0, 0, 0, 0, 0, 0, 0, 0, 0, 0, 0, 0, 0, 0, 0, 0, 0, 0, 0, 9]

def mOut : List Byte :=
  [4, 28, 18, 188, 26, 109, 87, 171, 230, 69, 83, 77, 145, 194, 27, 186, 100, 248, 130, 78, 103, 98, 28, 8, 89, 192,
   10, 3, 175, 251, 113, 60, 18, 86, 121, 122, 163, 65, 199, 129, 81, 83, 17, 91, 185, 172, 211, 204, 115, 172, 149,
   10, 143, 8, 225, 8, 48, 138, 57, 154, 254, 99, 190, 221, 194]

theorem mRun : mSecret .debug curve25519 3 false mIn = R.ok mOut := by decide +kernel

theorem mRunCheck : mCheck .debug curve25519 4 1 mIn mOut = R.ok true ∧ mCheck .debug curve25519 5 1 mIn mOut = R.ok false := by
  constructor <;> decide +kernel

theorem mRead {buf : List Byte} {b : Bool} (h : (Flow.unwrap (curve25519.decode buf)).isOk = b) (hb : b = true) :
    ∃ x y, ∃ _ : (mGroup curve25519_p curve25519).Nonsingular x y, ReadsAs curve25519.f.sizeBytes x y buf := by
  rw [hb] at h
  have h' := unwrap_eq_ok.1 (okGet_eq _ h)
  obtain ⟨x, y, hn, h1, -⟩ := (C105_montgomery_decode _ _ curve25519_valid.curve curve25519_valid.b_one (by decide +kernel) buf).1 _ h'
  exact ⟨x, y, hn, h1⟩

/-- The point of order two is also read with the tag `03`. -/
example := mRead (buf := 3 :: List.replicate 32 0) rfl (by decide +kernel)

example := (C105_montgomery_secret_partial _ _ curve25519_valid (by decide +kernel) .debug 3 (Or.inl (by decide +kernel)) false mIn mOut).1 mRun

example := (C105_montgomery_check_partial _ _ curve25519_valid (by decide +kernel) .debug 4 1 (Or.inl ⟨by decide +kernel, by decide +kernel⟩) _ _ mG_eq
  mG_den mIn mOut true).1 mRunCheck.1

example : mCheck .debug curve25519 curve25519.getOrder 7 mIn mOut = R.panic .overflow := by
  obtain ⟨x, y, hn, h1⟩ := mRead (buf := mIn) rfl (by decide +kernel)
  obtain ⟨x', y', hn', h2⟩ := mRead (buf := mOut) rfl (by decide +kernel)
  exact C105_montgomery_refuted_zero _ _ curve25519_valid (by decide +kernel) _ 7 dvd_rfl _ _ x y hn x' y' hn' h1 h2

def eIn : List Byte :=
  [88, 102, 102, 102, 102, 102, 102, 102, 102, 102, 102, 102, 102, 102, 102, 102, 102, 102, 102, 102, 102, 102, 102,
   102, 102, 102, 102, 102, 102, 102, 102, 102]

def eOut : List Byte :=
  [212, 180, 245, 120, 72, 104, 195, 2, 4, 3, 36, 103, 23, 236, 22, 159, 247, 158, 38, 96, 142, 161, 38, 161, 171, 105,
   238, 119, 209, 177, 103, 18]

theorem eRun : eSecret .debug edwards25519 3 false eIn = R.ok eOut := by decide +kernel

theorem eRunCheck : eCheck .debug edwards25519 4 1 eIn eOut = R.ok true ∧ eCheck .debug edwards25519 5 1 eIn eOut = R.ok false := by
  constructor <;> decide +kernel

theorem eRead {buf : List Byte} {b : Bool} (h : (Flow.unwrap (edwards25519.decode buf)).isOk = b) (hb : b = true) :
    ∃ A : eGroup curve25519_p edwards25519, IsRfc8032 A buf := by
  have := edwards25519_valid.curve
  rw [hb] at h
  have h' := unwrap_eq_ok.1 (okGet_eq _ h)
  obtain ⟨A, h1, -⟩ := (C105_edwards_decode curve25519_p edwards25519 (by decide +kernel) buf).1 _ h'
  exact ⟨A, h1⟩

example := (C105_edwards_secret_partial _ _ edwards25519_valid (by decide +kernel) .debug 3 (Or.inl (by decide +kernel)) false eIn eOut).1 eRun

example := (C105_edwards_check_partial _ _ edwards25519_valid (by decide +kernel) .debug 4 1 (Or.inl ⟨by decide +kernel, by decide +kernel⟩) _ _ eG_eq
  eG_den eIn eOut true).1 eRunCheck.1

example : eCheck .debug edwards25519 edwards25519.getOrder 7 eIn eOut = R.panic .overflow := by
  obtain ⟨A, h1⟩ := eRead (buf := eIn) rfl (by decide +kernel)
  obtain ⟨K, h2⟩ := eRead (buf := eOut) rfl (by decide +kernel)
  exact C105_edwards_refuted_zero _ _ edwards25519_valid (by decide +kernel) _ 7 dvd_rfl _ _ A K h1 h2

end Redox.Witness
