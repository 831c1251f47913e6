import Verif.Errors.PropsScopes
import Verif.Errors.PropsCross
import Verif.Errors.PropsInfo
import Verif.Errors.PropsDebug
