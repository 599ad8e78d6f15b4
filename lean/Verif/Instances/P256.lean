import Verif.Instances.Curves
import Verif.Proofs.InstLink

/-! # Validity of the parameters of `P256` (generated certificate) -/

set_option maxRecDepth 100000

namespace Redox.Inst

theorem p256_valid : Spec.WValid p256_p p256 :=
  InstLink.wValid_of_check p256 ⟨76626890310466861426869089647039036757962535851890885406097439786770458211455,
    74462945259064871768191128030512052509059297803194871526163573358218695456204,
    34768139465301476436978405170953382516735956999154666452188405812258086013549⟩
    p256_r_prime (by decide +kernel) (by decide +kernel)

end Redox.Inst
