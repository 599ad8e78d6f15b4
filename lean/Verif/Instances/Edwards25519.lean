import Verif.Instances.Curves
import Verif.Proofs.InstLink

/-! # Validity of the parameters of `EDWARDS25519` (generated certificate) -/

set_option maxRecDepth 100000

namespace Redox.Inst

theorem edwards25519_valid : Spec.EValid curve25519_p edwards25519 :=
  InstLink.eValid_of_check edwards25519
    curve25519_r_prime (by decide +kernel) (by decide +kernel)

end Redox.Inst
