import Verif.Instances.Curves
import Verif.Proofs.InstLink

/-! # Validity of the parameters of `CURVE448` (generated certificate) -/

set_option maxRecDepth 100000

namespace Redox.Inst

theorem curve448_valid : Spec.MValid curve448_p curve448 :=
  InstLink.mValid_of_check curve448 ⟨716144493036671870207473202020495909179498577067699702307105154073906791866555116560832673406836814462727491583700022189911803533648161,
    490655332172728450315701562250907223768578418026160388902199243606053587900507800701174307410023059135746870316253673482570389685842604,
    436223656262346402111979326307398885492878400974825533223497703360316764172075872223085892446678490127375499062813911775195515993880257⟩
    curve448_r_prime (by decide +kernel) (by decide +kernel)

end Redox.Inst
