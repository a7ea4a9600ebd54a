import Verif.Lexer.PropsBidi
import Verif.Lexer.PropsChar
import Verif.Lexer.PropsClean
import Verif.Lexer.PropsFile
import Verif.Lexer.PropsNames
import Verif.Lexer.PropsOps
import Verif.Lexer.PropsText
