import Verif.Comment

/-!
# Specification: what the formatter may see of a syntax tree

A skeleton is a syntax tree without node ids, rows and bytes.  Of the layout of the source it keeps

* for a comment: whether it shares a line with, and whether blank lines separate it from, the named siblings before and
  after it, and whether it ends on the line on which the code before it ends;
* for a member of a body (of a file, class, interface, constructor or a block): whether a blank line follows (and
  whether the next member is in the first line of the file: then the program panics if it checks for overflows,
  and assumes a blank line otherwise);
* for a node with an operator and an operand: which one comes first;
* the source text of words (names, literals, operators); for words whose letters are printed in lower or upper case,
  only up to letter case;
* the lines in which a comment is printed (see C22 and C23), not its source text.

The source text of all other nodes, hence all white space inside of declarations, statements and expressions and the
spelling of keywords, is not part of the skeleton.  C50 says that the output is a function of the skeleton.
-/

namespace Afmt

/-- Kinds whose source text is printed. -/
def wordKinds : List String :=
  ["identifier", "type_identifier", "void_type", "int", "decimal", "decimal_floating_point_literal", "boolean",
    "null_literal", "string_literal", "date", "date_literal", "assignment_operator", "user", "system", "else", "term",
    "in_type", "update_type", "using_scope_type", "field", "value_comparison_operator", "set_comparison_operator",
    "order_direction", "order_null_direction", "with_data_cat_filter_type", "for_type", "fields_type"]

/-- Fields whose source text is printed, whatever their kind. -/
def wordFields : List String := ["name", "key", "operator", "accessor", "version_num", "function_name", "field"]

/-- The source text of the node is printed because of the field in which it is; `pk`, `pf` are kind and field of its
parent. -/
def wordField (pk : String) (pf field : Option String) : Bool :=
  match field with
  | none => false
  | some f => wordFields.contains f || (f == "object" && pk == "trigger_declaration") ||
    (f == "value" && (pk == "annotation_key_value" || pf == some "arguments"))

/-- The source text of the node is part of the skeleton; `pk`, `pf` are kind and field of its parent. -/
def Node.shown (pk : String) (pf : Option String) (n : Node) : Bool :=
  n.extra || wordKinds.contains n.kind || (n.kind == "with_type" && !n.children.any (·.named)) || wordField pk pf n.field

/-- Kinds of parents of SOQL literals. -/
def literalParents : List String :=
  ["comparison_expression", "with_network_expression", "comparable_list", "using_lookup_bind_expression",
    "with_spell_correction_expression"]

/-- How letters are printed: as in the source, as small letters or as capital letters. -/
inductive Letters where
  | asIs | small | capital
  deriving DecidableEq

/-- The text with letters as they are printed. -/
def Letters.of : Letters → Str → Str
  | .asIs, s => s
  | .small, s => s.map Char.toLower
  | .capital, s => s.map Char.toUpper

/-- The letters of a word with the given parent: Apex literals are printed in small letters, some SOQL words in capital
letters. -/
def lettersOf (pk : String) (pf : Option String) (kind : String) (extra : Bool) (field : Option String) : Letters :=
  if extra || wordField pk pf field || literalParents.contains pk then .asIs
  else if ["boolean", "null_literal", "decimal_floating_point_literal"].contains kind then .small
  else if ["fields_type", "with_data_cat_filter_type"].contains kind ||
    (kind == "date_literal" && pk == "date_literal_with_param") then .capital
  else .asIs

/-- The node is a comment. -/
def isCommentNode (kind : String) (extra : Bool) (field : Option String) : Bool :=
  extra && field.isNone && (kind == "line_comment" || kind == "block_comment")

/-- The lines in which a comment is printed. -/
def drawnLines (kind : String) (text : Str) : List Str :=
  if kind == "line_comment" then [trimEnd text] else blockLines (trimEnd text)

/-- The source text of the node, up to letter case if it does not matter; of a comment, its lines as they are printed. -/
def Node.spelling (pk : String) (pf : Option String) (n : Node) : Str :=
  if isCommentNode n.kind n.extra n.field then (drawnLines n.kind n.text).flatMap (· ++ ['\n'])
  else (lettersOf pk pf n.kind n.extra n.field).of n.text

/-- The members of the node are separated by single or blank lines; `pk` is the kind of its parent. -/
def isBodyNode (pk : String) (field : Option String) (kind : String) : Bool :=
  ["parser_output", "class_body", "block", "interface_body"].contains kind ||
  (pk == "constructor_declaration" && field == some "body")

/-- The visible part of the line structure around a node. -/
structure Around where
  /-- comments: shares a line with the named node before, is separated from it by a blank line -/
  prev : Option (Bool × Bool)
  /-- comments: shares a line with the named node after, is separated from it by a blank line -/
  next : Option (Bool × Bool)
  /-- comments: ends on the line on which the code before it (a named node, a comma, a semicolon, `else`) ends -/
  owner : Option Bool
  /-- members of bodies: the next one is in the first line of the file and overflows are checked, a blank line is printed -/
  member : Option (Bool × Bool)
  deriving DecidableEq

/-- Code before a comment to which the comment may belong. -/
def Node.isCode (n : Node) : Bool := !n.extra && (n.named || n.kind == "," || n.kind == ";" || n.kind == "else")

/-- The line structure around a node, given its siblings on the left (nearest first) and on the right; `checks` tells
whether overflows are checked. -/
def around (checks body : Bool) (lefts : List Node) (n : Node) (rights : List Node) : Around :=
  { prev := if n.extra then (lefts.find? (·.named)).map
      (fun p => (n.startRow == p.endRow, decide (p.endRow + 1 < n.startRow))) else none
    next := if n.extra then (rights.find? (·.named)).map
      (fun x => (n.endRow == x.startRow, decide (n.endRow + 1 < x.startRow))) else none
    owner := if n.extra then (lefts.find? Node.isCode).map (fun o => n.endRow == o.endRow) else none
    member := if body && n.named && !n.extra then (rights.find? (·.named)).map
      (fun x => (checks && x.startRow == 0, (!checks && x.startRow == 0) || decide (n.endRow + 1 < x.startRow))) else none }

/-- Whether the operator precedes the operand. -/
def Node.operatorFirst (n : Node) : Option Bool :=
  match n.children.find? (·.field == some "operator"), n.children.find? (·.field == some "operand") with
  | some o, some x => some (decide (o.startByte < x.startByte))
  | _, _ => none

/-- A tree without ids and positions. -/
inductive Skel where
  | mk (kind : String) (named extra err : Bool) (field : Option String) (text : Option Str) (lines : Around)
    (operatorFirst : Option Bool) (children : List Skel)

mutual
/-- The skeleton of a node below a node of kind `pk` and field `pf`, a body if `body` is set, with its siblings. -/
def Node.skel (checks : Bool) (pk : String) (pf : Option String) (body : Bool) (lefts rights : List Node) : Node → Skel
  | .mk id kind named extra err field sr er sb eb text children =>
    let n := Node.mk id kind named extra err field sr er sb eb text children
    .mk kind named extra err field (if n.shown pk pf then some (n.spelling pk pf) else none) (around checks body lefts n rights)
      n.operatorFirst (skels checks kind field (isBodyNode pk field kind) [] children)
/-- The skeletons of the children. -/
def skels (checks : Bool) (pk : String) (pf : Option String) (body : Bool) (lefts : List Node) : List Node → List Skel
  | [] => []
  | n :: ns => n.skel checks pk pf body lefts ns :: skels checks pk pf body (n :: lefts) ns
end

/-- The skeleton of a tree. -/
def skeleton (checks : Bool) (root : Node) : Skel := root.skel checks "" none false [] []

mutual
/-- The ids of the nodes of a tree. -/
def Node.ids : Node → List Nat
  | .mk id _ _ _ _ _ _ _ _ _ _ children => id :: idsOf children
/-- The ids of the nodes of trees. -/
def idsOf : List Node → List Nat
  | [] => []
  | n :: ns => n.ids ++ idsOf ns
end

end Afmt
