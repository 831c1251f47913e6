import Verif.Refs.PropsFollow
import Verif.Refs.PropsOrder
import Verif.Refs.PropsOwn
