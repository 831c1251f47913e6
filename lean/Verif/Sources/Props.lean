import Verif.Sources.PropsAttach
import Verif.Sources.PropsTree
