import Verif.Nest.PropsHold
import Verif.Nest.PropsBatch
import Verif.Nest.PropsEnd
import Verif.Nest.PropsName
