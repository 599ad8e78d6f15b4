import Verif.Instances.Curves
import Verif.Proofs.InstLink

/-! # Validity of the parameters of `P521` (generated certificate) -/

set_option maxRecDepth 100000

namespace Redox.Inst

theorem p521_valid : Spec.WValid p521_p p521 :=
  InstLink.wValid_of_check p521 ⟨5556850081864827842302249485475501585472702946772625307642304195702912034363837867267334216347521692509406916620096684956176894315447091116492501000392161958,
    2592645775458497527836362227091103884154287512470494672274301275565663408730650270660448980645397363205839490313252565391972848223674401530161387302727484004,
    3919380404691066388712376322317341026252002696138380915147944189379687824774581460974855590730258562532022938584569429027963361353339635641909491533809725330⟩
    p521_r_prime (by decide +kernel) (by decide +kernel)

end Redox.Inst
