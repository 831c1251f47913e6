import Verif.Opts.PropsJson
import Verif.Opts.PropsText
import Verif.Opts.PropsBuilder
