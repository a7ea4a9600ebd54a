import Verif.Bitstruct.PropsInt
import Verif.Bitstruct.PropsArray
import Verif.Bitstruct.PropsOps
import Verif.Bitstruct.PropsSema
