import Verif.Instances.Curves
import Verif.Proofs.InstLink

/-! # Validity of the parameters of `P384` (generated certificate) -/

set_option maxRecDepth 100000

namespace Redox.Inst

theorem p384_valid : Spec.WValid p384_p p384 :=
  InstLink.wValid_of_check p384 ⟨23037766613497683937702734290281044719364893268180251583910224888989381657771069200037813904257325918671976092329602,
    8235438212423615602427778915669574859600037698862346933589434399495169446996583974901273360826717582835190849638831,
    12157362177932134139146813183752135342286725243554133716818896354380897714709611791313184492360272402950851405460538⟩
    p384_r_prime (by decide +kernel) (by decide +kernel)

end Redox.Inst
