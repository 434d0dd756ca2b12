import Verif.Props.Tokens
import Verif.Props.Position
import Verif.Props.Lexeme
import Verif.Props.Number
import Verif.Props.Quoted
import Verif.Props.Array
import Verif.Props.Nesting
import Verif.Props.Open
import Verif.Props.Abort
import Verif.Props.Setter
import Verif.Props.Heredoc
import Verif.Props.Parse
import Verif.Props.Message
import Verif.Props.Strings
import Verif.Props.Suffix
import Verif.Props.Expr
import Verif.Props.Scope
import Verif.Props.Layout
import Verif.Props.Lines
import Verif.Props.Grammar
import Verif.Props.Brackets
import Verif.Props.Char
import Verif.Props.Tree
import Verif.Props.Numbers
import Verif.Props.Places
import Verif.Props.Symbols
import Verif.Props.Pointer
import Verif.Props.Ruby
import Verif.Props.Interp
import Verif.Model.Sexp
