import Verif.Witness.Base
import Verif.Props.ActionProps
import Verif.Props.CofVerify
import Verif.Props.CofactorProps
import Verif.Props.HashReach
import Verif.Props.InstanceProps
import Verif.Props.MapFibres
import Verif.Props.NamedMaps
import Verif.Props.Subgroup

/-! # Every property theorem with hypotheses, applied to concrete values: lists -/

set_option maxRecDepth 100000

namespace Redox.Witness

open Redox Redox.Spec Redox.Props Redox.Inst Redox.Props.Inst

example := @C49_weierstrass _ (List.getElem_mem (l := Inst.weierstrassList) (n := 0) (by decide))

example := @C49_montgomery _ (List.getElem_mem (l := Inst.montgomeryList) (n := 0) (by decide))

example := @C49_edwards _ (List.getElem_mem (l := Inst.edwardsList) (n := 0) (by decide))

example := @C50_prime_order _ (List.getElem_mem (l := Inst.primeOrderList) (n := 0) (by decide))

example := @C52_named_weierstrass _ (List.getElem_mem (l := Inst.weierstrassList) (n := 0) (by decide))

example := @C52_named_montgomery _ (List.getElem_mem (l := Inst.montgomeryList) (n := 0) (by decide))

example := @C52_named_edwards _ (List.getElem_mem (l := Inst.edwardsList) (n := 0) (by decide))

example := @C58_weierstrass_partial _ (List.getElem_mem (l := Inst.clearList) (n := 0) (by decide))

example := @C58_montgomery _ (List.getElem_mem (l := Inst.montgomeryList) (n := 0) (by decide))

example := @C58_edwards _ (List.getElem_mem (l := Inst.edwardsList) (n := 0) (by decide))

example := @C59_weierstrass_partial _ (List.getElem_mem (l := Inst.primeOrderList) (n := 0) (by decide))

example := @C59_montgomery _ (List.getElem_mem (l := Inst.montgomeryList) (n := 0) (by decide))

example := @C59_edwards _ (List.getElem_mem (l := Inst.edwardsList) (n := 0) (by decide))

example := @C65_sswu _ (List.getElem_mem (l := Inst.sswuSuites) (n := 0) (by decide))

example := @C65_svdw _ (List.getElem_mem (l := Inst.svdwSuites) (n := 0) (by decide))

example := @C65_ell2 _ (List.getElem_mem (l := Inst.ell2Suites) (n := 0) (by decide))

example := @C65_hash_weierstrass _ (List.getElem_mem (l := Inst.wMaps) (n := 0) (by decide))

example := @C65_hash_montgomery _ (List.getElem_mem (l := Inst.mMaps) (n := 0) (by decide))

example := @C66_weierstrass_partial _ (List.getElem_mem (l := Inst.wSizes) (n := 0) (by decide))

example := @C66_identity_refuted _ (List.getElem_mem (l := Inst.wSizes) (n := 0) (by decide))

example := @C66_edwards _ (List.getElem_mem (l := Inst.eSizes) (n := 0) (by decide))

example := @C66_montgomery_partial _ (List.getElem_mem (l := Inst.mSizes) (n := 0) (by decide))

example := @C66_montgomery_identity_refuted _ (List.getElem_mem (l := Inst.mSizes) (n := 0) (by decide)) true

example := @C66_montgomery_malleable_refuted _ (List.getElem_mem (l := Inst.mSizes) (n := 0) (by decide))

example := @C71_named_sswu _ (List.getElem_mem (l := Inst.sswuSuites) (n := 0) (by decide))

example := @C71_named_svdw _ (List.getElem_mem (l := Inst.svdwSuites) (n := 0) (by decide))

example := @C83_named_prime _ (List.getElem_mem (l := Inst.primeOrderList) (n := 0) (by decide))

example := @C99_named_weierstrass _ (List.getElem_mem (l := Inst.weierstrassList) (n := 0) (by decide))

example := @C99_named_montgomery _ (List.getElem_mem (l := Inst.montgomeryList) (n := 0) (by decide))

example := @C99_named_edwards _ (List.getElem_mem (l := Inst.edwardsList) (n := 0) (by decide))

example := @C103_named_weierstrass _ (List.getElem_mem (l := Inst.clearList) (n := 0) (by decide))

example := @C103_named_montgomery _ (List.getElem_mem (l := Inst.montgomeryList) (n := 0) (by decide))

example := @C103_named_edwards _ (List.getElem_mem (l := Inst.edwardsList) (n := 0) (by decide))

example := @C104_sswu _ (List.getElem_mem (l := Reach.sswuMaps) (n := 0) (by decide))

example := @C104_svdw _ (List.getElem_mem (l := Reach.svdwMaps) (n := 0) (by decide))

end Redox.Witness
