import Verif.Instances.Curves
import Verif.Proofs.InstLink

/-! # Validity of the parameters of `EDWARDS448` (generated certificate) -/

set_option maxRecDepth 100000

namespace Redox.Inst

theorem edwards448_valid : Spec.EValid curve448_p edwards448 :=
  InstLink.eValid_of_check edwards448
    curve448_r_prime (by decide +kernel) (by decide +kernel)

end Redox.Inst
