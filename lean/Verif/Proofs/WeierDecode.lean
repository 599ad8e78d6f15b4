import Verif.Proofs.WeierLink
import Verif.Proofs.SqrtLink
import Verif.Proofs.Bytes

/-! # Closed form of the Weierstrass decoder -/

set_option linter.unusedSectionVars false

namespace Redox.WLink

open Spec Weierstrass RCB

theorem slice_mid {α : Type} (t : α) (xs ys : List α) : slice (t :: (xs ++ ys)) 1 (xs.length + 1) = R.ok xs := by
  have h : xs.length + 1 ≤ (t :: (xs ++ ys)).length := by simp
  simp [slice]

theorem slice_end {α : Type} (t : α) (xs ys : List α) :
    slice (t :: (xs ++ ys)) (xs.length + 1) (t :: (xs ++ ys)).length = R.ok ys := by
  have h : List.take (xs.length + ys.length) (xs ++ ys) = xs ++ ys := List.take_of_length_le (by simp)
  simp [slice, h]

theorem index_head {α : Type} (t : α) (xs : List α) : index (t :: xs) 0 = R.ok t := rfl

section
variable {p : ℕ} [Fact p.Prime] {e : Curve} (he : WCurve p e)
include he

theorem one_le_sizeBytes : 1 ≤ e.f.sizeBytes := by
  rw [he.field]; exact Big.one_le_size he.prime.ne_zero

theorem newPoint_pt (x y : ZMod p) : e.newPoint (el x) (el y) =
    if y ^ 2 = x ^ 3 + val p e.a * x + val p e.b then R.ok (pt e x y 1) else R.panic .notValidPoint := by
  have hnew : e.newPoint (el x) (el y) = e.newProyPoint ⟨el x, el y, el (1 : ZMod p)⟩ := by
    simp only [Curve.newPoint, Curve.newProyPoint, he.field, one_eq, R.ok_bind]
  rw [hnew, newProyPoint_pt (ea he) (eb he)]
  congr 1
  rw [eq_iff_iff]
  constructor <;> intro h <;> linear_combination -h

theorem decode_wrongSize (buf : List Byte) (h1 : buf.length ≠ 1) (h2 : buf.length ≠ e.f.sizeBytes + 1)
    (h3 : buf.length ≠ 2 * e.f.sizeBytes + 1) : e.decode buf = R.ok (.error .wrongSize) := by
  simp [Curve.decode, h1, h2, h3]

theorem decode_one (t : Byte) : e.decode [t] = R.panic .indexOutOfRange := by
  have := one_le_sizeBytes he
  have h : ¬ (e.f.sizeBytes + 1 ≤ 1) := by omega
  simp [Curve.decode, index_head, slice, h]

/-- What happens after the length checks. -/
theorem decode_body (t : Byte) (xs ys : List Byte) (hx : xs.length = e.f.sizeBytes)
    (hy : ys = [] ∨ ys.length = e.f.sizeBytes) :
    e.decode (t :: (xs ++ ys)) =
      if p ≤ Big.fromBytesBE xs then R.ok (.error .invalidX)
      else if t = 0 then R.ok (.error .infinityForm)
      else if t = 4 then
        if ys = [] then R.ok (.error .invalidBytes)
        else if p ≤ Big.fromBytesBE ys then R.ok (.error .invalidY)
        else (do return .ok (← e.newPoint (el (Big.fromBytesBE xs : ZMod p)) (el (Big.fromBytesBE ys : ZMod p))))
      else if t = 2 ∨ t = 3 then
        if ys ≠ [] then R.ok (.error .invalidBytes)
        else (do
          let x : ZMod p := Big.fromBytesBE xs
          let s ← (el (x ^ 3 + val p e.a * x + val p e.b)).sqrt
          let y ← if t ≠ UInt8.ofNat (signBit s.sgn0 + 2) then s.neg else R.ok s
          return .ok (← e.newPoint (el x) y))
      else R.ok (.error .invalidTag) := by
  have h1 := one_le_sizeBytes he
  have hlen : (t :: (xs ++ ys)).length = e.f.sizeBytes + 1 ∨ (t :: (xs ++ ys)).length = 2 * e.f.sizeBytes + 1 := by
    rcases hy with rfl | hy
    · left; simp [hx]
    · right; simp only [List.length_cons, List.length_append]; omega
  have hsize : (!((t :: (xs ++ ys)).length == 1 || (t :: (xs ++ ys)).length == e.f.sizeBytes + 1 ||
      (t :: (xs ++ ys)).length == 2 * e.f.sizeBytes + 1)) = false := by
    rcases hlen with h | h <;> simp [h]
  have hblen1 : (t :: (xs ++ ys)).length ≠ 1 := by rcases hlen with h | h <;> omega
  have hys : (t :: (xs ++ ys)).length ≠ 2 * e.f.sizeBytes + 1 ↔ ys = [] := by
    simp only [List.length_cons, List.length_append]
    rcases hy with rfl | hy
    · simp; omega
    · constructor
      · intro h; omega
      · rintro rfl; simp at hy; omega
  have hys' : (t :: (xs ++ ys)).length ≠ e.f.sizeBytes + 1 ↔ ys ≠ [] := by
    simp only [List.length_cons, List.length_append]
    rcases hy with rfl | hy
    · simp; omega
    · constructor
      · rintro h rfl; simp at hy; omega
      · intro _; omega
  have hs1 := hx ▸ slice_mid t xs ys
  have hs2 := hx ▸ slice_end t xs ys
  have hp : e.f.p = p := by rw [he.field]
  unfold Curve.decode
  simp only [hsize, Bool.false_eq_true, if_false, index_head, R.ok_bind, hs1, hp, ge_iff_le]
  by_cases hxv : p ≤ Big.fromBytesBE xs
  · simp [hxv]
  simp only [hxv, if_false]
  by_cases ht0 : t = 0
  · simp only [ht0, if_true] at *
    rw [if_pos hblen1]; rfl
  simp only [ht0, if_false]
  by_cases ht4 : t = 4
  · simp only [ht4, if_true]
    subst ht4
    by_cases hy0 : ys = []
    · rw [if_pos (hys.2 hy0), if_pos hy0]; rfl
    · rw [if_neg (fun h => hy0 (hys.1 h)), if_neg hy0]
      simp only [he.field, elt_eq, R.ok_bind, Int.cast_natCast]
      rw [← he.field, hs2]
      simp only [R.ok_bind]
      split_ifs <;> rfl
  simp only [ht4, if_false]
  by_cases ht : t = 2 ∨ t = 3
  · simp only [ht, if_true]
    by_cases hy0 : ys ≠ []
    · rw [if_pos (hys'.2 hy0), if_pos hy0]; rfl
    · rw [if_neg (fun h => hy0 (hys'.1 h)), if_neg hy0]
      have hcub : ((Big.fromBytesBE xs : ZMod p) * Big.fromBytesBE xs + val p e.a) * Big.fromBytesBE xs + val p e.b =
          (Big.fromBytesBE xs : ZMod p) ^ 3 + val p e.a * (Big.fromBytesBE xs : ZMod p) + val p e.b := by ring
      rw [he.field]
      rw [elt_eq, R.ok_bind, Int.cast_natCast, R.fmul_ok, mul_el, R.ok_bind, ea he, R.fadd_ok, add_el, R.ok_bind,
        R.fmul_ok, mul_el, R.ok_bind, eb he, R.fadd_ok, add_el, R.ok_bind, val_el, val_el, hcub]
  · simp only [ht, if_false]; rfl

end
end Redox.WLink
