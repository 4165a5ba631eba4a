import Verif.RtNs.BuilderProps
import Verif.RtNs.NsProps
import Verif.RtNs.WaitProps
import Verif.RtNs.Race
