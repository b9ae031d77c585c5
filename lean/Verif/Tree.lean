import Verif.Text

/-!
# Syntax trees: the part of the tree-sitter `Node` interface afmt uses, and src/accessor.rs

The parser itself is not modelled: all theorems quantify over arbitrary trees.
-/

namespace Afmt

/-- A tree-sitter node.  `text` is what `node.utf8_text(source)` returns (the model stores the slice instead of slicing
the source).  `err` is true for ERROR/MISSING nodes. `field` is the field name under which the node hangs in its
parent. -/
structure Node where
  id : Nat
  kind : String
  named : Bool
  extra : Bool
  err : Bool
  field : Option String
  startRow : Nat
  endRow : Nat
  startByte : Nat
  endByte : Nat
  text : Str
  children : List Node

/-- The context of a node inside its parent: the parent and the siblings (left siblings nearest first). -/
structure Frame where
  parent : Node
  lefts : List Node
  rights : List Node

/-- A node together with its surroundings, as a tree-sitter `Node` value allows to navigate to parent and siblings. -/
structure Loc where
  node : Node
  path : List Frame

/-- Reasons for a panic (or stack overflow) of the program. -/
inductive Panic where
  | assertCheck        -- assert_check failed
  | unknownNode        -- panic_unknown_node
  | missingChild       -- accessor did not find a mandatory child
  | missingBucket      -- no comment bucket for a node id
  | unsupported        -- other explicit panics (`unreachable!`, unsupported operator, missing semicolons)
  | unwrapNone         -- unwrap/expect of None
  | arithmetic         -- arithmetic overflow in a build with overflow checks
  | stackOverflow      -- recursion deeper than the available stack
  | erasedComment      -- assert_no_missing_comments
  | indentZero         -- PrettyConfig::new(0)
  | parseError         -- parser reported an error node
  | alreadySet         -- thread local set twice
  | notSet             -- thread local read before set
  | readFile           -- source file could not be read
  deriving DecidableEq, Repr

abbrev R := Except Panic

instance instDecEqR {α : Type} [DecidableEq α] : DecidableEq (R α) := fun a b =>
  match a, b with
  | .ok x, .ok y => if h : x = y then isTrue (by rw [h]) else isFalse (by intro e; cases e; exact h rfl)
  | .error x, .error y => if h : x = y then isTrue (by rw [h]) else isFalse (by intro e; cases e; exact h rfl)
  | .ok _, .error _ => isFalse (by intro e; cases e)
  | .error _, .ok _ => isFalse (by intro e; cases e)

namespace Loc

def id (l : Loc) : Nat := l.node.id
def kind (l : Loc) : String := l.node.kind
def named (l : Loc) : Bool := l.node.named
def extra (l : Loc) : Bool := l.node.extra
/-- `Accessor::value` (src/accessor.rs 52-59). -/
def value (l : Loc) : Str := l.node.text
def startRow (l : Loc) : Nat := l.node.startRow
def endRow (l : Loc) : Nat := l.node.endRow
def startByte (l : Loc) : Nat := l.node.startByte

/-- The root of a tree as location. -/
def ofRoot (n : Node) : Loc := ⟨n, []⟩

/-- tree-sitter `Node::parent`. -/
def parent (l : Loc) : Option Loc :=
  match l.path with
  | [] => none
  | f :: fs => some ⟨f.parent, fs⟩

/-- Locations of a list of siblings. -/
def childrenGo (p : Loc) : List Node → List Node → List Loc
  | _, [] => []
  | lefts, c :: rights => ⟨c, ⟨p.node, lefts, rights⟩ :: p.path⟩ :: childrenGo p (c :: lefts) rights

/-- tree-sitter `Node::children`: all children, including anonymous tokens and extras. -/
def children (l : Loc) : List Loc := childrenGo l [] l.node.children

/-- tree-sitter `Node::named_children`. -/
def namedChildren (l : Loc) : List Loc := l.children.filter (·.named)

/-- The right siblings, nearest first. -/
def rightSiblings (l : Loc) : List Loc :=
  match l.path with
  | [] => []
  | f :: fs => childrenGo ⟨f.parent, fs⟩ (l.node :: f.lefts) f.rights

/-- tree-sitter `Node::next_sibling`. -/
def nextSibling (l : Loc) : Option Loc := l.rightSiblings.head?

/-- tree-sitter `Node::next_named_sibling`. -/
def nextNamedSibling (l : Loc) : Option Loc := l.rightSiblings.find? (·.named)

/-! ### src/accessor.rs -/

/-- `children_vec` (61-66): named children that are not extras. -/
def childrenVec (l : Loc) : List Loc := l.namedChildren.filter (fun c => !c.extra)

/-- `try_c_by_k` (73-77). -/
def tryCByK (l : Loc) (k : String) : Option Loc := l.namedChildren.find? (fun c => c.kind == k)

/-- `try_cs_by_k` (79-84). -/
def tryCsByK (l : Loc) (k : String) : List Loc := l.namedChildren.filter (fun c => c.kind == k)

/-- `try_c_by_n` (86-88): tree-sitter `child_by_field_name`. -/
def tryCByN (l : Loc) (f : String) : Option Loc := l.children.find? (fun c => c.node.field == some f)

/-- `c_by_k` (90-99). -/
def cByK (l : Loc) (k : String) : R Loc :=
  match l.tryCByK k with
  | some c => .ok c
  | none => .error .missingChild

/-- `try_first_c` (101-110). -/
def tryFirstC (l : Loc) : Option Loc := l.namedChildren.find? (fun c => !c.extra)

/-- `first_c` (112-124). -/
def firstC (l : Loc) : R Loc :=
  match l.tryFirstC with
  | some c => .ok c
  | none => .error .missingChild

/-- `c_by_n` (151-160). -/
def cByN (l : Loc) (f : String) : R Loc :=
  match l.tryCByN f with
  | some c => .ok c
  | none => .error .missingChild

/-- `cvalue_by_n` / `cv_by_n` (131-145). -/
def cvalueByN (l : Loc) (f : String) : R Str :=
  match l.tryCByN f with
  | some c => .ok c.value
  | none => .error .missingChild

/-- `cvalue_by_k` / `cv_by_k` (126-129, 147-149). -/
def cvalueByK (l : Loc) (k : String) : R Str :=
  match l.tryCByK k with
  | some c => .ok c.value
  | none => .error .missingChild

/-- `cs_by_n` (162-174): tree-sitter `children_by_field_name`, at least one. -/
def csByN (l : Loc) (f : String) : R (List Loc) :=
  match l.children.filter (fun c => c.node.field == some f) with
  | [] => .error .missingChild
  | cs => .ok cs

/-- `cs_by_k` (176-187). -/
def csByK (l : Loc) (k : String) : R (List Loc) :=
  match l.tryCsByK k with
  | [] => .error .missingChild
  | cs => .ok cs

/-- `next_named` (41-50): next named sibling that is not an extra. -/
def nextNamed (l : Loc) : R Loc :=
  match l.rightSiblings.find? (fun c => c.named && !c.extra) with
  | some c => .ok c
  | none => .error .missingChild

end Loc

/-- `assert_check` (src/utility.rs 484-492). -/
def assertCheck (l : Loc) (k : String) : R Unit :=
  if l.kind == k then .ok () else .error .assertCheck

/-- `is_punctuation_node` (src/utility.rs 143-145). -/
def isPunctuationKind (k : String) : Bool := k == "," || k == ";"

/-- `is_associable_unnamed_node` (src/utility.rs 147-149). -/
def isAssociableUnnamedKind (k : String) : Bool := isPunctuationKind k || k == "else"

/-- `is_bracket_composite_node` (src/utility.rs 592-597). -/
def isBracketCompositeKind (k : String) : Bool :=
  k == "trigger_body" || k == "class_body" || k == "block" || k == "enum_body"

/-- `is_a_chaining_node` (src/utility.rs 573-581). -/
def isChainingKind (k : String) : Bool :=
  k == "method_invocation" || k == "array_access" || k == "field_access" || k == "query_expression"

/-- `is_binary_exp` (src/utility.rs 514-516). -/
def isBinaryExp (l : Loc) : Bool := l.kind == "binary_expression"

/-- `is_query_expression` (src/utility.rs 518-520). -/
def isQueryExpression (l : Loc) : Bool := l.kind == "query_expression"

/-- `get_precedence` (src/utility.rs 494-512). -/
def getPrecedence (op : String) : R Nat :=
  if op ∈ ["=", "+=", "-=", "*=", "/=", "%=", "&=", "|=", "^=", "<<=", ">>=", ">>>="] then .ok 1
  else if op ∈ ["?", ":"] then .ok 2
  else if op = "||" then .ok 3
  else if op = "??" then .ok 3
  else if op = "&&" then .ok 5
  else if op = "|" then .ok 6
  else if op = "^" then .ok 7
  else if op = "&" then .ok 8
  else if op ∈ ["==", "!=", "===", "!==", "<>"] then .ok 9
  else if op ∈ [">", "<", ">=", "<=", "instanceof"] then .ok 10
  else if op ∈ ["<<", ">>", ">>>"] then .ok 11
  else if op ∈ ["+", "-"] then .ok 12
  else if op ∈ ["*", "/", "%"] then .ok 13
  else if op ∈ ["!", "~", "++", "--"] then .ok 14
  else .error .unsupported

/-- `ChainingContext` (src/data_model.rs 750-754). -/
structure ChainingContext where
  isParentAChainingNode : Bool
  isTopMostInAChain : Bool
  deriving DecidableEq, Repr

/-- `build_chaining_context` (src/utility.rs 549-571). -/
def buildChainingContext (l : Loc) : R (Option ChainingContext) :=
  match l.parent with
  | none => .error .unwrapNone
  | some p =>
    let isParent := isChainingKind p.kind
    let hasChild := ((l.tryCByN "object").map (fun n => isChainingKind n.kind)).getD false
    if !isParent && !hasChild then .ok none
    else .ok (some { isTopMostInAChain := hasChild && !isParent, isParentAChainingNode := isParent })

end Afmt
