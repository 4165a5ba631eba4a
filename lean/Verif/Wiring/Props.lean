import Verif.Wiring.SpecProps
import Verif.Wiring.NsProps
import Verif.Wiring.NsQueue
import Verif.Wiring.NsRel
import Verif.Wiring.UniqProps
import Verif.Wiring.PtrProps
