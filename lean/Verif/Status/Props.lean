import Verif.Status.PropsBox
import Verif.Status.PropsDev
