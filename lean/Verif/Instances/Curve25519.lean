import Verif.Instances.Curves
import Verif.Proofs.InstLink

/-! # Validity of the parameters of `CURVE25519` (generated certificate) -/

set_option maxRecDepth 100000

namespace Redox.Inst

theorem curve25519_valid : Spec.MValid curve25519_p curve25519 :=
  InstLink.mValid_of_check curve25519 ⟨13333919749856007161615400341592404008995312576148998397828671423026149614476,
    47703256669125318434657913387745193548382380329473079306949651000848558323864,
    23514389461832592494741121943025980664378968193534757856631976913659148245642⟩
    curve25519_r_prime (by decide +kernel) (by decide +kernel)

end Redox.Inst
