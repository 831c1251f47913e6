import Verif.Info.PropsFields
import Verif.Info.PropsSave
import Verif.Info.PropsCaps
import Verif.Info.PropsClients

/-! # Device information: all properties -/
