import Verif.Loading.PropsModes
import Verif.Loading.PropsOptions
import Verif.Loading.PropsRemap
import Verif.Loading.PropsConn

/-! # Properties of loading configurations into devices -/
