import Verif.Skel
import Verif.Gram.Grammar

/-!
# Specification: the syntax tree of a formatted text

C51 is about formatting a text that was formatted before.  The parser is not modelled, so the tree of the formatted text
is described here: it looks like the tree of the original text (`alike`), and its nodes are in the lines of the formatted
text in which their characters are (`placed`).  Trees without comments only.
-/

namespace Afmt
open Gram

/-- The line of the `i`-th visible character of a text. -/
def rowAt : Str → Nat → Nat
  | [], _ => 0
  | c :: s, i =>
    if c = '\n' then rowAt s i + 1
    else if isBlank c then rowAt s i
    else match i with
      | 0 => 0
      | i + 1 => rowAt s i

mutual
/-- The node starts in the line of the `i`-th visible character of the text and ends in the line of the last of the
visible characters of its leaves, and likewise the nodes below it. -/
def placed (s : Str) (i : Nat) : Node → Bool
  | .mk id kind named extra err field sr er sb eb text children =>
    let n := Node.mk id kind named extra err field sr er sb eb text children
    sr == rowAt s i && er == rowAt s (i + (code n).length - 1) && placeds s i children
/-- Siblings, starting with the `i`-th visible character of the text. -/
def placeds (s : Str) (i : Nat) : List Node → Bool
  | [] => true
  | c :: cs => placed s i c && placeds s (i + (code c).length) cs
end

mutual
/-- The nodes have the same kind, field, words (up to letter case for words whose letters are changed by the formatter)
and order of operators, leaves also the same characters up to letter case, and likewise the nodes below them.  `pk`, `pf` are kind and field of the parent. -/
def alike (pk : String) (pf : Option String) : Node → Node → Bool
  | .mk id kind named extra err field sr er sb eb text children,
    .mk id' kind' named' extra' err' field' sr' er' sb' eb' text' children' =>
    let n := Node.mk id kind named extra err field sr er sb eb text children
    let n' := Node.mk id' kind' named' extra' err' field' sr' er' sb' eb' text' children'
    kind == kind' && named == named' && extra == extra' && err == err' && field == field' &&
    (!n.shown pk pf || n.spelling pk pf == n'.spelling pk pf) && (!children.isEmpty || fold (ink text) == fold (ink text')) &&
    n.operatorFirst == n'.operatorFirst && alikes kind field children children'
/-- Siblings. -/
def alikes (pk : String) (pf : Option String) : List Node → List Node → Bool
  | [], [] => true
  | a :: as, b :: bs => alike pk pf a b && alikes pk pf as bs
  | _, _ => false
end

/-- The text has visible characters and neither begins nor ends with a blank. -/
def trimmed (s : Str) : Bool :=
  !(ink s).isEmpty && s.head?.all (fun c => !isBlank c) && s.getLast?.all (fun c => !isBlank c)

mutual
/-- Texts and kinds of all nodes are trimmed. -/
def neat : Node → Bool
  | .mk _ kind _ _ _ _ _ _ _ _ text children => trimmed text && trimmed kind.toList && neats children
/-- Siblings. -/
def neats : List Node → Bool
  | [] => true
  | c :: cs => neat c && neats cs
end

/-- The formatter puts a blank line between the members `c` and `x`: there are blank lines between them in the source, or
`x` is in the first line of the source (src/enum_def.rs 811-823: `start_position().row - 1` wraps around). -/
def blankBetween (c x : Node) : Bool := x.startRow == 0 || decide (c.endRow + 1 < x.startRow)

/-- If `c` and the next sibling are members, one line break or blank line is between them in the text; the `i`-th visible
character is the first one after `c`. -/
def parted (s : Str) (i : Nat) (c : Node) : List Node → Bool
  | [] => true
  | x :: _ => !c.named || !x.named || rowAt s i == rowAt s (i - 1) + (if blankBetween c x then 2 else 1)

mutual
/-- In the text, whose `i`-th visible character is the first one of the node, consecutive members of bodies are separated
by exactly one line break, or by exactly one blank line if `blankBetween` says so. -/
def lined (s : Str) (i : Nat) : Node → Bool
  | .mk _ kind _ _ _ _ _ _ _ _ _ children => lineds s (bodyKinds.contains kind) i children
/-- Siblings; `body`: they are children of a body. -/
def lineds (s : Str) (body : Bool) (i : Nat) : List Node → Bool
  | [] => true
  | c :: cs =>
    lined s i c && (!body || parted s (i + (code c).length) c cs) && lineds s body (i + (code c).length) cs
end

mutual
/-- No member of a body is in the first line of the source, except as the first member of the body; `pk` is the kind of
the parent. -/
def late (pk : String) : Node → Bool
  | .mk _ kind _ _ _ field _ _ _ _ _ children => lates kind (isBodyNode pk field kind) children
/-- Siblings; `body`: they are children of a body. -/
def lates (pk : String) (body : Bool) : List Node → Bool
  | [] => true
  | c :: cs =>
    late pk c && (!body || !c.named || (cs.find? (·.named)).all (fun x => x.startRow != 0)) && lates pk body cs
end

end Afmt
