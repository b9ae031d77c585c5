import Verif.Reparse
import Verif.Segments

/-!
# Specification: comments between members

Trees in which all comments are in bodies (of files, classes, interfaces, constructors or blocks), in lines of their own or
at the end of the last line of a member, and the lines of such trees in the formatted text.
-/

namespace Afmt
open Gram

/-- A comment as it is written: a line comment is one line, a block comment ends with `*/`. -/
def isNote (n : Node) : Bool :=
  n.extra && n.named && n.children.isEmpty &&
  ((n.kind == "line_comment" && "//".toList.isPrefixOf n.text && !n.text.contains '\n' && n.startRow == n.endRow) ||
   (n.kind == "block_comment" && "/*".toList.isPrefixOf n.text && "/*".toList.isPrefixOf n.text.reverse &&
     decide (4 ≤ n.text.length) && decide (n.startRow ≤ n.endRow)))

/-- The node is a line comment in the line in which the member `c` ends. -/
def atEnd (c x : Node) : Bool := x.extra && !c.extra && x.kind == "line_comment" && x.startRow == c.endRow

/-- Comments and the nodes next to them are in different lines, except for line comments after a member. -/
def apartRows : List Node → Bool
  | c :: x :: r => (!(c.extra || x.extra) || atEnd c x || decide (c.endRow < x.startRow)) && apartRows (x :: r)
  | _ => true

/-- The comments among the children of a body: there is a member besides them, and nothing but members and comments
between the first and the last of them. -/
def settledBody (kids : List Node) : Bool :=
  kids.all (fun c => !c.extra) ||
  (kids.any (fun c => c.named && !c.extra) && kids.all (fun c => !c.extra || isNote c) &&
   ((kids.dropWhile (fun c => !c.named)).dropWhile (·.named)).all (fun c => !c.named) && apartRows (kids.filter (·.named)))

mutual
/-- All comments of the tree are comments between members. -/
def settled : Node → Bool
  | .mk _ kind _ _ _ _ _ _ _ _ _ children =>
    (if bodyKinds.contains kind then settledBody children else children.all (fun c => !c.extra)) && settleds children
/-- Siblings. -/
def settleds : List Node → Bool
  | [] => true
  | c :: cs => settled c && settleds cs
end

/-! ## Lines -/

/-- The lines in which a comment is printed (without indentation, see C23). -/
def drawn (n : Node) : List Str := if n.kind == "line_comment" then [trimEnd n.text] else blockLines (trimEnd n.text)

mutual
/-- The number of visible characters that are printed for a node. -/
def extent : Node → Nat
  | .mk id kind named extra err field sr er sb eb text children =>
    if extra then ((drawn (.mk id kind named extra err field sr er sb eb text children)).flatMap ink).length
    else match children with
      | [] => (ink text).length
      | c :: cs => extent c + extents cs
/-- Siblings. -/
def extents : List Node → Nat
  | [] => 0
  | c :: cs => extent c + extents cs
end

/-- The line breaks between `c` and `x` in the formatted text. -/
def stepN (c x : Node) : Nat := if atEnd c x then 0 else if blankBetween c x then 2 else 1

/-- If `c` and the next sibling are members or comments, the right number of line breaks is between them in the text; the
`i`-th visible character is the first one after `c`. -/
def partedN (s : Str) (i : Nat) (c : Node) : List Node → Bool
  | [] => true
  | x :: _ => !c.named || !x.named || rowAt s i == rowAt s (i - 1) + stepN c x

/-- A comment at the end of a line is in one line. -/
def oneLine (s : Str) (i : Nat) (c : Node) : List Node → Bool
  | [] => true
  | x :: _ => !c.named || !x.named || !atEnd c x || rowAt s i == rowAt s (i + extent x - 1)

mutual
/-- In the text, whose `i`-th visible character is the first one of the node, consecutive members and comments of bodies are
separated by one line break, by one blank line if there are blank lines between them in the source, or not at all if the
second one is a comment at the end of the line. -/
def linedN (s : Str) (i : Nat) : Node → Bool
  | .mk _ kind _ _ _ _ _ _ _ _ _ children => linedNs s (bodyKinds.contains kind) i children
/-- Siblings; `body`: they are children of a body. -/
def linedNs (s : Str) (body : Bool) (i : Nat) : List Node → Bool
  | [] => true
  | c :: cs =>
    linedN s i c && (!body || (partedN s (i + extent c) c cs && oneLine s (i + extent c) c cs)) && linedNs s body (i + extent c) cs
end

/-! ## The tree of the formatted text -/

/-- The text consists of these lines, all but the first indented by the same number of blanks. -/
def inLines (text : Str) (ls : List Str) : Bool := (List.range (text.length + 1)).any (fun i => text == joinLines i ls)

/-- No line comment at the end of a line is in the first line of the text. -/
def lateEnds : List Node → Bool
  | c :: x :: r => (!atEnd c x || x.startRow != 0) && lateEnds (x :: r)
  | _ => true

mutual
/-- No comment after a member is in the first line of the text. -/
def lateNotes : Node → Bool
  | .mk _ _ _ _ _ _ _ _ _ _ _ children => lateEnds children && lateNotess children
/-- Siblings. -/
def lateNotess : List Node → Bool
  | [] => true
  | c :: cs => lateNotes c && lateNotess cs
end

mutual
/-- The number of visible characters of the text of a node. -/
def width : Node → Nat
  | .mk _ _ _ _ _ _ _ _ _ _ text children => match children with
      | [] => (ink text).length
      | c :: cs => width c + widths cs
/-- Siblings. -/
def widths : List Node → Nat
  | [] => 0
  | c :: cs => width c + widths cs
end

mutual
/-- The node starts in the line of the `i`-th visible character of the text and ends in the line of the last of the
visible characters of its leaves, and likewise the nodes below it. -/
def placedN (s : Str) (i : Nat) : Node → Bool
  | .mk id kind named extra err field sr er sb eb text children =>
    let n := Node.mk id kind named extra err field sr er sb eb text children
    sr == rowAt s i && er == rowAt s (i + width n - 1) && placedNs s i children
/-- Siblings, starting with the `i`-th visible character of the text. -/
def placedNs (s : Str) (i : Nat) : List Node → Bool
  | [] => true
  | c :: cs => placedN s i c && placedNs s (i + width c) cs
end

mutual
/-- The nodes have the same kind, field, words (up to letter case for words whose letters are changed by the formatter)
and order of operators, leaves also the same characters up to letter case, and likewise the nodes below them; a comment is
written in the lines in which the formatter prints it (see C23).  `pk`, `pf` are kind and field of the parent. -/
def alikeN (pk : String) (pf : Option String) : Node → Node → Bool
  | .mk id kind named extra err field sr er sb eb text children,
    .mk id' kind' named' extra' err' field' sr' er' sb' eb' text' children' =>
    let n := Node.mk id kind named extra err field sr er sb eb text children
    let n' := Node.mk id' kind' named' extra' err' field' sr' er' sb' eb' text' children'
    kind == kind' && named == named' && extra == extra' && err == err' && field == field' &&
    (if extra then field.isNone && inLines text' (drawn n)
     else (!n.shown pk pf || n.spelling pk pf == n'.spelling pk pf) && (!children.isEmpty || fold (ink text) == fold (ink text'))) &&
    n.operatorFirst == n'.operatorFirst && alikeNs kind field children children'
/-- Siblings. -/
def alikeNs (pk : String) (pf : Option String) : List Node → List Node → Bool
  | [], [] => true
  | a :: as, b :: bs => alikeN pk pf a b && alikeNs pk pf as bs
  | _, _ => false
end

end Afmt
