import Verif.Tree
import Verif.Doc

/-!
# The members of a file, one at a time (specification)
-/

namespace Afmt

/-- The file with one member only. -/
def Node.only : Node → Node → Node
  | .mk id kind named extra err field sr er sb eb text _, m => .mk id kind named extra err field sr er sb eb text [m]

/-- The file with other members. -/
def Node.withMembers : Node → List Node → Node
  | .mk id kind named extra err field sr er sb eb text _, ms => .mk id kind named extra err field sr er sb eb text ms

/-- The texts of the members one below the other; an empty line where at least one row lies between two members. -/
def joinMembers (out : Node → Str) : List Node → Str
  | [] => []
  | [m] => out m
  | m :: m' :: ms => out m ++ (if m.endRow + 1 < m'.startRow then ['\n'] else []) ++ joinMembers out (m' :: ms)

/-- The text is not empty and begins with neither a line break nor a blank. -/
def beginsWithText : Str → Bool
  | [] => false
  | c :: _ => c != '\n' && c != ' '

end Afmt
