import Verif.Instances.Curves
import Verif.Proofs.InstLink

/-! # Validity of the parameters of `SECP256K1_3ISO` (generated certificate) -/

set_option maxRecDepth 100000

namespace Redox.Inst

theorem secp256k1_3iso_valid : Spec.WValid secp256k1_p secp256k1_3iso :=
  InstLink.wValid_of_check secp256k1_3iso ⟨33108211069619291381323019740140250048902086546019007754589112886640606487906,
    65746272900734094794520533722246501181568940661915114760907887598982590548231,
    57932575872155370804526763766574765373972278683901743254616891686846668300176⟩
    secp256k1_r_prime (by decide +kernel) (by decide +kernel)

end Redox.Inst
