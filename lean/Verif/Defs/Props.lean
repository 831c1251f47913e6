import Verif.Defs.PropsAccept
import Verif.Defs.PropsSave
import Verif.Defs.PropsWrite
import Verif.Defs.PropsSelect
