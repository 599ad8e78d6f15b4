import Verif.Witness.Base
import Verif.Props.Cache
import Verif.Props.Composite
import Verif.Props.CompositeSqrt
import Verif.Props.DisplayProps
import Verif.Props.EdwMapProps
import Verif.Props.FieldArith
import Verif.Props.FieldBytes
import Verif.Props.FieldHistory
import Verif.Props.FieldMisc
import Verif.Props.FieldParse
import Verif.Props.MemoryProps
import Verif.Props.ProfileProps
import Verif.Props.Quad
import Verif.Props.QuadApi
import Verif.Props.QuadCache
import Verif.Props.ScalarProps
import Verif.Props.ThreadsProps
import Verif.Props.Threshold
import Verif.Props.TraceProps

/-! # Every property theorem with hypotheses, applied to concrete values: fields -/

set_option maxRecDepth 100000

namespace Redox.Witness

open Redox Redox.Spec Redox.Props Redox.Inst Redox.Props.Inst

/-! ## Histories used below -/

theorem warm7 (u : ℕ) : (CacheWorld.init.run ⟨7⟩ [0, 0]).pc u = .idle := by
  have : Fp.calcSqrtPrecmp ⟨7⟩ = R.ok (.p3mod4 2) := by decide +kernel
  simp [CacheWorld.run, CacheWorld.step, CacheWorld.init, CacheCell.new, CacheCell.borrowMut, this, CacheCell.getOrInsertAndDrop]

theorem warm49 (u : ℕ) : (QuadWorld.init.run ⟨⟨7⟩⟩ [0, 0]).pc u = .idle := by
  have : Fp2.calcSqrtPrecmp ⟨⟨7⟩⟩ = R.ok (1, 3) := by decide +kernel
  simp [QuadWorld.run, QuadWorld.step, QuadWorld.init, QuadCell.new, QuadCell.borrowMut, this, QuadCell.getOrInsertAndDrop]

theorem calc13 : Fp.calcSqrtPrecmp ⟨13⟩ = R.ok (.p5mod8 2 ⟨5, ⟨13⟩⟩) := by decide +kernel

theorem root3 : FpElt.sqrtWith ⟨3, ⟨13⟩⟩ (.p5mod8 2 ⟨5, ⟨13⟩⟩) = R.ok ⟨9, ⟨13⟩⟩ := by decide +kernel

theorem root4 : FpElt.sqrtWith ⟨4, ⟨13⟩⟩ (.p5mod8 2 ⟨5, ⟨13⟩⟩) = R.ok ⟨2, ⟨13⟩⟩ := by decide +kernel

theorem own_uses (t : ℕ) : Thr.Uses (fun _ => ⟨13⟩) (fun i => id i = t) (Thr.demo t) :=
  .sqrt _ _ _ rfl rfl (.sqrt _ _ _ rfl rfl (.done _) (.done _)) (.sqrt _ _ _ rfl rfl (.done _) (.done _))

theorem own_run : (((Threads.init Thr.demo).run [0, 1, 0, 1, 1, 0, 0, 1]).thread 1).prog =
    .done [R.ok ⟨9, ⟨13⟩⟩, R.ok ⟨2, ⟨13⟩⟩] := by
  simp [Threads.run, Threads.step, Threads.init, Thr.demo, upd, CacheCell.new, CacheCell.borrowMut, CacheCell.getOrInsertAndDrop,
    calc13, root3, root4]

theorem shared_uses (_ : ℕ) : Thr.Uses (fun _ => ⟨13⟩) (fun _ => True) (Thr.demo 0) :=
  .sqrt _ _ _ trivial rfl (.sqrt _ _ _ trivial rfl (.done _) (.done _)) (.sqrt _ _ _ trivial rfl (.done _) (.done _))

theorem shared_run : (((Threads.init fun _ => Thr.demo 0).run [0, 1, 0, 1, 1]).thread 1).prog =
    .done [R.panic .alreadyBorrowed, R.ok ⟨2, ⟨13⟩⟩] := by
  simp [Threads.run, Threads.step, Threads.init, Thr.demo, upd, CacheCell.new, CacheCell.borrowMut, CacheCell.getOrInsertAndDrop,
    calc13, root3, root4]

/-- Threads 0 and 2 share a field, thread 1 has its own. -/
def partlyShared (t : ℕ) : Prog (List (R FpElt)) := Thr.demo (if t = 1 then 1 else 0)

theorem partly_run : (((Threads.init partlyShared).run [0, 1, 2, 1, 2, 0, 1, 1]).thread 1).prog = .done [R.ok ⟨9, ⟨13⟩⟩, R.ok ⟨2, ⟨13⟩⟩] ∧
    (((Threads.init partlyShared).run [0, 1, 2, 1, 2, 0, 1, 1]).thread 2).prog = .done [R.panic .alreadyBorrowed, R.panic .alreadyBorrowed] := by
  simp [Threads.run, Threads.step, Threads.init, Thr.demo, partlyShared, upd, CacheCell.new, CacheCell.borrowMut, CacheCell.getOrInsertAndDrop,
    calc13, root3, root4]

/-! ## Applications -/

example := @C08_programs_private (List (R FpElt)) (fun _ => ⟨13⟩) (fun i => i = 1) partlyShared 1
  (.sqrt _ _ _ rfl rfl (.sqrt _ _ _ rfl rfl (.done _) (.done _)) (.sqrt _ _ _ rfl rfl (.done _) (.done _)))
  (fun u hu => by
    have : partlyShared u = Thr.demo 0 := by simp [partlyShared, hu]
    rw [this]
    exact .sqrt _ _ _ (by decide) rfl (.sqrt _ _ _ (by decide) rfl (.done _) (.done _)) (.sqrt _ _ _ (by decide) rfl (.done _) (.done _)))
  [0, 1, 2, 1, 2, 0, 1, 1] _ partly_run.1

example := @C01_arith p256_p (by meets) (-4) 9

example := @C01_ops p256_p (by meets) ⟨5, ⟨p256_p⟩⟩ ⟨7, ⟨p256_p⟩⟩ (by meets) (by meets)

example := @C02_canonical ⟨3, ⟨7⟩⟩ (Reach.elt ⟨7⟩ 10 (by decide) (by decide +kernel))

example := @C02_eq ⟨3, ⟨7⟩⟩ ⟨5, ⟨7⟩⟩ (Reach.elt ⟨7⟩ 10 (by decide) (by decide +kernel))
  (Reach.fromStr ⟨7⟩ (ascii! "-0x2") (by decide) (by decide +kernel)) (by meets)

example := @C03_div p256_p (by meets) (by meets) ⟨6, ⟨p256_p⟩⟩ ⟨8, ⟨p256_p⟩⟩ (by meets) (by meets) (by meets)

example := @C03_div_zero p256_p (by meets) (by meets) ⟨6, ⟨p256_p⟩⟩ ⟨0, ⟨p256_p⟩⟩ (by meets) (by meets) (by meets)

example := @C03_div_two ⟨1, ⟨2⟩⟩ ⟨1, ⟨2⟩⟩ (by meets) (by meets)

example := @C04_mix ⟨5, ⟨p256_p⟩⟩ ⟨5, ⟨curve25519_p⟩⟩ (by meets)

example := @C04_same p256_p (by meets) ⟨5, ⟨p256_p⟩⟩ ⟨7, ⟨p256_p⟩⟩ (by meets) (by meets)

example := @C05_pow_nat p256_p (by meets) ⟨5, ⟨p256_p⟩⟩ (by meets) 12

example := @C05_pow_int_partial p256_p (by meets) ⟨5, ⟨p256_p⟩⟩ (by meets) (-3) (by meets)

example := @C05_zero_base p256_p (by meets) ⟨0, ⟨p256_p⟩⟩ (by meets) (by meets) (-3)

example := @C05_refuted p256_p (by meets)

example := @C06_is_square p256_p (by meets) (by meets) ⟨5, ⟨p256_p⟩⟩ (by meets)

example := @C07_sqrt p256_p (by meets) (by meets) ⟨5, ⟨p256_p⟩⟩ (by meets)

example := @C07_sqrt_unimplemented 17 (by meets) ⟨5, ⟨17⟩⟩ (by meets)

example := @C08_sequential_partial ⟨13⟩ [⟨3, ⟨13⟩⟩, ⟨4, ⟨13⟩⟩] (by meets)

example := @C08_concurrent_safety ⟨7⟩ [0, 0, 1, 1] (1, R.ok (.p3mod4 2)) (by meets)

example := @C08_concurrent_nonoverlapping ⟨7⟩ [0, 1]

example := @C08_refuted_concurrent p256_p (by meets)

example := @C08_concurrent_exact ⟨7⟩ [0, 0, 1] 0 (by meets)

example := @C08_refuted_warm ⟨7⟩ [0, 0] warm7 1 2 (by meets)

example := @C08_programs_safety (List (R FpElt)) (fun _ => ⟨13⟩) (fun _ => Thr.demo 0) shared_uses [0, 1, 0, 1, 1] 1
  [R.panic .alreadyBorrowed, R.ok ⟨2, ⟨13⟩⟩] shared_run

example := @C08_programs_partial (List (R FpElt)) (fun _ => ⟨13⟩) id Thr.demo own_uses [0, 1, 0, 1, 1, 0, 0, 1] 1
  [R.ok ⟨9, ⟨13⟩⟩, R.ok ⟨2, ⟨13⟩⟩] own_run

example := @C08_programs_progress (List (R FpElt)) Thr.demo (fun n => n % 2) 1 (fun n => ⟨2 * n + 1, by omega, by omega⟩)

example := @C09_sgn0 p256_p (by meets) ⟨5, ⟨p256_p⟩⟩ (by meets)

example := @C10_serialize p256_p (by meets) ⟨5, ⟨p256_p⟩⟩ (by meets)

example := @C11_deserialize p256_p (by meets) [2, 7, 1] 5

example := @C12_parse p256_p (by meets) true (16, ascii! "0x") (by meets) [(1, false), (10, true), (15, false)]
  (by meets) (by meets)

example := @C12_display_parse p256_p (by meets) ⟨5, ⟨p256_p⟩⟩ (by meets)

example := @C12_decimal p256_p (by meets) 19

example := @C13_ring p256_p (by meets) ⟨⟨5, ⟨p256_p⟩⟩, ⟨9, ⟨p256_p⟩⟩, ⟨⟨p256_p⟩⟩⟩
  ⟨⟨7, ⟨p256_p⟩⟩, ⟨11, ⟨p256_p⟩⟩, ⟨⟨p256_p⟩⟩⟩ (by meets) (by meets)

example := @C13_elt p256_p (by meets) 6

example := @C13_mix ⟨⟨5, ⟨p256_p⟩⟩, ⟨9, ⟨p256_p⟩⟩, ⟨⟨p256_p⟩⟩⟩ ⟨⟨5, ⟨7⟩⟩, ⟨3, ⟨7⟩⟩, ⟨⟨7⟩⟩⟩ (by meets)

example := @C14_inv_partial p256_p (by meets) (by meets) ⟨⟨5, ⟨p256_p⟩⟩, ⟨9, ⟨p256_p⟩⟩, ⟨⟨p256_p⟩⟩⟩ (by meets) (by meets)

example := @C14_refuted p256_p (by meets) (by meets)

example := @C16_is_square_partial p256_p (by meets) (by meets) ⟨⟨5, ⟨p256_p⟩⟩, ⟨9, ⟨p256_p⟩⟩, ⟨⟨p256_p⟩⟩⟩ (by meets)
  (by meets)

example := @C16_refuted p256_p (by meets)

example := @C17_bytes p256_p (by meets) ⟨⟨5, ⟨p256_p⟩⟩, ⟨9, ⟨p256_p⟩⟩, ⟨⟨p256_p⟩⟩⟩ (by meets)

example := @C17_total p256_p (by meets) [2, 7, 1]

example := @C17_layout p256_p (by meets) ⟨⟨5, ⟨p256_p⟩⟩, ⟨9, ⟨p256_p⟩⟩, ⟨⟨p256_p⟩⟩⟩ (by meets)

example := @C18_sgn0 p256_p (by meets) ⟨⟨5, ⟨p256_p⟩⟩, ⟨9, ⟨p256_p⟩⟩, ⟨⟨p256_p⟩⟩⟩ (by meets)

example := @C18_antisym_partial p256_p (by meets) ⟨⟨5, ⟨p256_p⟩⟩, ⟨9, ⟨p256_p⟩⟩, ⟨⟨p256_p⟩⟩⟩ (by meets) (by meets)

example := @C18_refuted p256_p (by meets) (by meets)

example := @C19_arith 101 (by meets) (-4) 9

example := @C19_div p256_r (by meets) (by meets) ⟨4, p256_r⟩ ⟨6, p256_r⟩ (by meets) (by meets)

example := @C19_mix ⟨4, p256_r⟩ ⟨6, 101⟩ (by meets)

example := @C20_iter_lr_partial .debug 5 97 (by meets) (by meets)

example := @C21_serialize p256_r (by meets) ⟨9, p256_r⟩ (by meets)

example := @C44_refuted_448 ⟨1, ⟨curve448_p⟩⟩ (by meets)

example := @C56_div_partial p256_p (by meets) (by meets) ⟨⟨5, ⟨p256_p⟩⟩, ⟨9, ⟨p256_p⟩⟩, ⟨⟨p256_p⟩⟩⟩
  ⟨⟨7, ⟨p256_p⟩⟩, ⟨11, ⟨p256_p⟩⟩, ⟨⟨p256_p⟩⟩⟩ (by meets) (by meets) (by meets)

example := @C56_div_zero p256_p (by meets) (by meets) ⟨⟨5, ⟨p256_p⟩⟩, ⟨9, ⟨p256_p⟩⟩, ⟨⟨p256_p⟩⟩⟩
  ⟨⟨0, ⟨p256_p⟩⟩, ⟨0, ⟨p256_p⟩⟩, ⟨⟨p256_p⟩⟩⟩ (by meets) (by meets) (by meets)

example := @C56_refuted p256_p (by meets) (by meets)

example := @C56_predicates p256_p (by meets) ⟨⟨5, ⟨p256_p⟩⟩, ⟨9, ⟨p256_p⟩⟩, ⟨⟨p256_p⟩⟩⟩
  ⟨⟨7, ⟨p256_p⟩⟩, ⟨11, ⟨p256_p⟩⟩, ⟨⟨p256_p⟩⟩⟩ (by meets)

example := @C57_literals p256_p (by meets) (ascii! "-0x1Af,12")

example := @C57_parse p256_p (by meets) true false (16, ascii! "0x") (10, []) (by meets) (by meets)
  [(1, false), (10, true), (15, false)] [(1, false), (2, false)] (by meets) (by meets) (by meets) (by meets)

example := @C57_no_comma p256_p (ascii! "12") (by meets)

example := @C57_display p256_p (by meets) ⟨⟨5, ⟨p256_p⟩⟩, ⟨9, ⟨p256_p⟩⟩, ⟨⟨p256_p⟩⟩⟩ (by meets)

example := @C57_refuted p256_p (by meets) ⟨⟨5, ⟨p256_p⟩⟩, ⟨9, ⟨p256_p⟩⟩, ⟨⟨p256_p⟩⟩⟩ (by meets)

example := @C57_roundtrip_partial p256_p (by meets) ⟨⟨5, ⟨p256_p⟩⟩, ⟨9, ⟨p256_p⟩⟩, ⟨⟨p256_p⟩⟩⟩ (by meets)

example := @C61_prime p256_p (by meets) ⟨5, ⟨p256_p⟩⟩ ⟨7, ⟨p256_p⟩⟩ (by meets) (by meets)

example := @C61_quad p256_p (by meets) ⟨⟨5, ⟨p256_p⟩⟩, ⟨9, ⟨p256_p⟩⟩, ⟨⟨p256_p⟩⟩⟩
  ⟨⟨7, ⟨p256_p⟩⟩, ⟨11, ⟨p256_p⟩⟩, ⟨⟨p256_p⟩⟩⟩ (by meets) (by meets)

example := @C61_from p256_p (by meets) 6

example := @C62_literals p256_p (by meets) (ascii! "-0x1Af")

example := @C63_scalar 101 (by meets) 5

example := @C64_curve p256_p (by meets)

example := @C64_point_partial p256_p (by meets)

example := @C74_lr_partial .debug 5 97 (by meets) (by meets)

example := @C81_alive curve25519_p [.clone, .sqrt, .clone, .drop, .drop] 1 (by meets) (by meets)

example := @C81_freed_partial curve25519_p [.clone, .drop, .drop] (by meets) (by meets)

example := @C81_refuted curve25519_p (by meets) [.clone, .sqrt, .clone, .drop, .drop, .drop] 0 (by meets) (by meets)

example := @C88_inverse 15 (by meets) ⟨2, ⟨15⟩⟩ (by meets)

example := @C88_field_iff 15 (by meets)

example := @C88_half 15 (by meets) 2 ⟨-7, 1, by norm_num⟩ (by meets)

example := @C88_scalar_iff 101 (by meets)

example := @C88_one ⟨0, ⟨1⟩⟩ (by meets) ⟨0, 1⟩ (by meets)

example := @C89_count 5 101 (by meets)

example := @C91_sequential_partial ⟨⟨7⟩⟩ [⟨⟨2, ⟨7⟩⟩, ⟨0, ⟨7⟩⟩, ⟨⟨7⟩⟩⟩, ⟨⟨3, ⟨7⟩⟩, ⟨1, ⟨7⟩⟩, ⟨⟨7⟩⟩⟩] (by meets)

example := @C91_concurrent_safety ⟨⟨7⟩⟩ [0, 0, 1, 1] (1, R.ok (1, 3)) (by meets)

example := @C91_concurrent_nonoverlapping ⟨⟨7⟩⟩ [0, 1]

example := @C91_refuted_concurrent p256_p (by meets)

example := @C91_no_poison 13 (by meets) [⟨⟨2, ⟨13⟩⟩, ⟨0, ⟨13⟩⟩, ⟨⟨13⟩⟩⟩, ⟨⟨3, ⟨13⟩⟩, ⟨1, ⟨13⟩⟩, ⟨⟨13⟩⟩⟩] (by meets)

example := @C91_concurrent_exact ⟨⟨7⟩⟩ [0, 0, 1] 0 (by meets)

example := @C91_refuted_warm ⟨⟨7⟩⟩ [0, 0] warm49 1 2 (by meets)

example := @C93_is_square_iff 15 (by meets)

example := @C93_sqrt_iff 8911 (by meets)

example := @C96_scalars p256_r (by meets) (by meets) [7, 11] [2, 3, 5] (by meets) (by meets)

end Redox.Witness
