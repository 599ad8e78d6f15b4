import Verif.Instances.Curves
import Verif.Proofs.InstLink

/-! # Validity of the parameters of `BLS12381G1` (generated certificate) -/

set_option maxRecDepth 100000

namespace Redox.Inst

theorem bls12381g1_valid : Spec.WValid bls12381g1_p bls12381g1 :=
  InstLink.wValid_of_check bls12381g1 ⟨0,
    0,
    1000602388805416848288324173873208079754105729848633517411273972340919538205171425491731769859297557207743673838251⟩
    bls12381g1_r_prime (by decide +kernel) (by decide +kernel)

end Redox.Inst
