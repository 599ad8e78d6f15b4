import Verif.Instances.Curves
import Verif.Proofs.InstLink

/-! # Validity of the parameters of `SECP256K1` (generated certificate) -/

set_option maxRecDepth 100000

namespace Redox.Inst

theorem secp256k1_valid : Spec.WValid secp256k1_p secp256k1 :=
  InstLink.wValid_of_check secp256k1 ⟨0,
    0,
    46758632835564736012269203954919337884311706168562511263687580192619680188360⟩
    secp256k1_r_prime (by decide +kernel) (by decide +kernel)

end Redox.Inst
