import Verif.Instances.Curves
import Verif.Proofs.InstLink

/-! # Validity of the parameters of `BLS12381G1_11ISO` (generated certificate) -/

set_option maxRecDepth 100000

namespace Redox.Inst

theorem bls12381g1_11iso_valid : Spec.WValid bls12381g1_p bls12381g1_11iso :=
  InstLink.wValid_of_check bls12381g1_11iso ⟨3581225145818981921445159253799615720572315773894215409904203560110593237003590012172603947903194115860537229842822,
    3708658914933914521789474239292798600556172903603147920794624420315079435135156955125382553326179664922229068677916,
    309252305941472786928943141161856545374972085262673275331767348695194384529507520456342192859544500756946320939011⟩
    bls12381g1_r_prime (by decide +kernel) (by decide +kernel)

end Redox.Inst
