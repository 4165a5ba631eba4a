import Verif.Deploy.ComposeProps
import Verif.Deploy.EnvProps
import Verif.Deploy.KubeProps
import Verif.Deploy.RunProps
