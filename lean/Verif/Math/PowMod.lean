import Mathlib.Data.Nat.ModEq
import Mathlib.Data.ZMod.Basic
import Mathlib.Tactic.Ring
import Verif.Model.BigInt

/-! `Big.powMod` computes modular powers. -/

namespace Redox.Big

theorem powModAux_eq (b m : ℕ) : ∀ fuel e, e < 2 ^ fuel → powModAux b m fuel e = b ^ e % m := by
  intro fuel
  induction fuel with
  | zero => intro e he; have : e = 0 := by omega
            subst this; simp [powModAux]
  | succ k ih =>
    intro e he
    unfold powModAux
    split
    · next h => subst h; simp
    · have h2 : e / 2 < 2 ^ k := by rw [pow_succ] at he; omega
      have hh := ih _ h2
      simp only [hh]
      have key : b ^ (e / 2) * b ^ (e / 2) = b ^ (e / 2 + e / 2) := by ring
      split
      · next h =>
        have he' : e = (e / 2 + e / 2) + 1 := by omega
        conv_rhs => rw [he', pow_succ, ← key]
        simp [Nat.mul_mod]
      · next h =>
        have he' : e = (e / 2 + e / 2) := by omega
        conv_rhs => rw [he', ← key]
        simp [Nat.mul_mod]

theorem powMod_eq (b e m : ℕ) : powMod b e m = b ^ e % m :=
  powModAux_eq b m _ e Nat.lt_log2_self

end Redox.Big
