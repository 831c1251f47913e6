import Verif.Mgr.PropsLoad
import Verif.Mgr.PropsIds
import Verif.Mgr.PropsChoice
import Verif.Mgr.PropsConn
import Verif.Mgr.PropsDisc
import Verif.Mgr.PropsCaps
/-!
# The module manager

Everything that is proved about it.
-/
