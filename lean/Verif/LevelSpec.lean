import Verif.Settled

/-!
# Indentation and nesting

What the nesting of a syntax tree says about the columns at which lines of the formatted text begin, stated without
the formatter: the visible characters of the tree and its comments in order, with the places where a line has to begin.
-/

namespace Afmt
open Gram

/-- For every visible character of a text its column if it is the first one of its line; `m` blanks of the line came
before, or a visible character (`none`). -/
def columns (m : Option Nat) : Str → List (Option Nat)
  | [] => []
  | c :: s => if c = '\n' then columns (some 0) s else if c = ' ' then columns (m.map (· + 1)) s else m :: columns none s

/-- A visible character of the code or of a comment, the start of a line with the given number of blanks, further blanks at
the start of a line, or other white space. -/
inductive Ev where
  | chr
  | note
  | line (i : Nat)
  | shift (n : Nat)
  | gap
  deriving DecidableEq, Repr

/-- For every visible character the column it has to have as the first one of its line, or `none` if nothing is
required; `m` is what is required of the next one. -/
def wanted (m : Option Nat) : List Ev → List (Option Nat)
  | [] => []
  | .chr :: r => m :: wanted none r
  | .note :: r => m :: wanted none r
  | .shift n :: r => wanted (m.map (· + n)) r
  | .line i :: r => wanted (some i) r
  | .gap :: r => wanted none r

/-- The columns meet the requirements, character by character. -/
def agree : List (Option Nat) → List (Option Nat) → Bool
  | [], [] => true
  | a :: as, b :: bs => (b.isNone || a == b) && agree as bs
  | _, _ => false

/-- How the children of a node are arranged: in the flow of a line, as members of the file, as members in braces, or as
the parts of an `if` statement without braces around its first branch. -/
inductive Lay where
  | flow | file | braces | branch
  deriving DecidableEq, Repr

/-- Kinds of nodes with members in braces. -/
def bracedKinds : List String := ["class_body", "block", "interface_body", "constructor_body", "switch_block"]

/-- Arrangement of the children; accessors have lines of their own if one of them has a body, the parts of an `if`
statement if the first branch is no block. -/
def lay (kind : String) (children : List Node) : Lay :=
  if kind == "parser_output" then .file
  else if bracedKinds.contains kind ||
      (kind == "accessor_list" && children.any (fun a => a.children.any (fun c => c.field == some "body"))) then .braces
  else if kind == "if_statement" && children.all (fun c => c.field != some "consequence" || c.kind != "block") then .branch
  else .flow

/-- Column at which the child has to begin a line, if it has to, and the indentation inside of the child: members in
braces and the branches of an `if` without braces are indented by `k`, the closing brace and the `else` are not. -/
def place (k i : Nat) (l : Lay) (c : Node) : Option Nat × Nat :=
  match l with
  | .flow => (none, i)
  | .file => if c.named then (some i, i) else (none, i)
  | .braces => if c.named then (some (i + k), i + k) else if c.kind == "}" then (some i, i) else (none, i)
  | .branch =>
    if c.kind == "else" then (some i, i)
    else if c.field == some "consequence" ||
        (c.field == some "alternative" && c.kind != "block" && c.kind != "if_statement") then (some (i + k), i + k)
    else (none, i)

/-- The start of a line, if it is required. -/
def start : Option Nat → List Ev
  | none => []
  | some i => [.line i]

/-- A line of a comment: the blanks at its start and its visible characters. -/
def written (l : Str) : List Ev :=
  if (ink l).isEmpty then [.gap] else .shift (l.takeWhile (· == ' ')).length :: List.replicate (ink l).length .note

/-- The lines of a comment, one below the other with the same indentation. -/
def remark (i : Nat) : List Str → List Ev
  | [] => []
  | [l] => written l
  | l :: ls => written l ++ .line i :: remark i ls

/-- The start of the line of a child; a comment at the end of the line of the member `p` begins no line. -/
def opening (k i : Nat) (l : Lay) (p : Option Node) (c : Node) : List Ev :=
  if p.any (fun q => atEnd q c) then [] else start (place k i l c).1

mutual
/-- The visible characters of a tree with the starts of lines; `k` is the size of one indentation, `i` the indentation
around the node. -/
def nested (k i : Nat) : Node → List Ev
  | .mk id kind named extra err field sr er sb eb text children =>
    if extra then remark i (drawn (.mk id kind named extra err field sr er sb eb text children))
    else if children.isEmpty then List.replicate (ink text).length .chr
    else nesteds k i (lay kind children) none children
/-- Siblings with the given arrangement; `p` is the last named one before them. -/
def nesteds (k i : Nat) (l : Lay) (p : Option Node) : List Node → List Ev
  | [] => []
  | c :: cs => opening k i l p c ++ nested k (place k i l c).2 c ++ nesteds k i l (if c.named then some c else p) cs
end

mutual
/-- No line has to begin inside of the tree. -/
def flowing : Node → Bool
  | .mk _ kind _ _ _ _ _ _ _ _ _ children => (lay kind children == .flow) && flowings children
/-- Siblings. -/
def flowings : List Node → Bool
  | [] => true
  | c :: cs => flowing c && flowings cs
end

/-- The named node after `c`, or after the comment at the end of its line, is in the next line at the latest. -/
def closeRows (c d : Node) (ds : List Node) : Bool :=
  if atEnd c d then ds.head?.all (fun e => decide (e.startRow ≤ d.endRow + 1))
  else decide (0 < d.startRow) && decide (d.startRow ≤ c.endRow + 1)

/-- The places where the formatter does not indent by nesting do not occur in the node: the body of an anonymous class,
a constructor call with an empty line after it, and an `else` branch without braces that is no single line. -/
def regular (kind : String) (children : List Node) : Bool :=
  (kind != "object_creation_expression" || children.all (fun c => c.kind != "class_body")) &&
  (kind != "constructor_body" || match (children.filter (fun c => c.named)).dropWhile (fun c => c.extra) with
    | c :: d :: ds => c.kind != "explicit_constructor_invocation" || closeRows c d ds
    | _ => true) &&
  (lay kind children != .branch || children.all (fun c => c.field != some "alternative" || c.kind == "block" ||
    c.kind == "if_statement" || flowing c))

mutual
/-- `regular` for all nodes of a tree. -/
def regulars : Node → Bool
  | .mk _ kind _ _ _ _ _ _ _ _ _ children => regular kind children && regularss children
/-- Siblings. -/
def regularss : List Node → Bool
  | [] => true
  | c :: cs => regulars c && regularss cs
end

end Afmt
