import Verif.Ast.Knot

/-!
# Formatting one source (src/formatter.rs)

The parser is not modelled.  It is a parameter: a function from source text to tree.
-/

namespace Afmt

/-- `Config` (src/formatter.rs 19-26). -/
structure Config where
  maxWidth : Nat
  indentSize : Nat
  deriving DecidableEq, Repr

mutual
/-- tree-sitter `Node::has_error`: the node or something below it is an ERROR or MISSING node. -/
def Node.hasError : Node → Bool
  | .mk _ _ _ _ err _ _ _ _ _ _ children => err || kidsHaveError children
def kidsHaveError : List Node → Bool
  | [] => false
  | n :: ns => n.hasError || kidsHaveError ns
end

mutual
/-- `find_last_error_node` (src/formatter.rs 207-223). -/
def findLastErrorNode : Node → Option Node
  | .mk id kind named extra err field sr er sb eb text children =>
    let n := Node.mk id kind named extra err field sr er sb eb text children
    if !n.hasError then none else findLastErrorKids (some n) children
/-- The loop over the children (src/formatter.rs 214-220); the accumulator is `last_error_node`. -/
def findLastErrorKids (acc : Option Node) : List Node → Option Node
  | [] => acc
  | c :: cs => findLastErrorKids (if c.hasError then findLastErrorNode c else acc) cs
end

/-- Rust `&s[..n]` on a string of at least `n` bytes: `none` (panic) if byte `n` is not a character boundary. -/
def takeBytes : Nat → Str → Option Str
  | 0, _ => some []
  | _ + 1, [] => none
  | n + 1, c :: cs => if c.utf8Size ≤ n + 1 then (takeBytes (n + 1 - c.utf8Size) cs).map (c :: ·) else none

/-- `SNIPPET_MAX_LEN` (src/utility.rs 13). -/
def snippetMaxLen : Nat := 80

/-- `truncate_snippet` (src/utility.rs 15-21). -/
def truncateSnippet (s : Str) : Option Str :=
  if byteLen s ≤ snippetMaxLen then some s else (takeBytes snippetMaxLen s).map (· ++ ['…'])

/-- The check of `Formatter::parse` (src/formatter.rs 178-202) on the tree the parser returned.  The two messages are
not modelled, only that producing a snippet may itself panic (either way the function panics). `Node::parent` of the
error node is only used for a message and is left out. -/
def checkParsed (root : Node) : R Node :=
  if root.hasError then
    match findLastErrorNode root with
    | some e => match truncateSnippet e.text with
      | some _ => .error .parseError
      | none => .error .unwrapNone
    | none => .error .parseError
  else .ok root

/-- `assert_no_missing_comments` (src/utility.rs 122-141): every comment of the map is in the log of printed comments. -/
def noMissingComments (cm : CMap) (log : List Comment) : Bool := cm.all.all (fun c => decide (c ∈ log))

/-- The second half of `format_one` (src/formatter.rs 150-165), from the comment map on.  `depth` bounds the recursion
(the stack), `checks` says whether arithmetic overflow is checked. -/
def enrichAndPrint (checks : Bool) (depth : Nat) (cfg : Config) (root : Node) (cm : CMap) : R Str :=
  match Prog.new { cm, checks } depth .root (Loc.ofRoot root) with
  | .error e => .error e
  | .ok p =>
    -- `PrettyConfig::new` (src/doc.rs 34-42)
    if cfg.indentSize = 0 then .error .indentZero
    else match p.build cfg.indentSize cm with
      | .error e => .error e
      | .ok (d, log) =>
        match prettyPrint cfg.maxWidth d with
        | none => .error .stackOverflow
        | some out => if noMissingComments cm log then .ok out else .error .erasedComment

/-- `Formatter::format_one` (src/formatter.rs 141-166) on the parsed tree, on a thread whose thread locals are unset. -/
def formatTree (checks : Bool) (depth : Nat) (cfg : Config) (root : Node) : R Str :=
  match checkParsed root with
  | .error e => .error e
  | .ok root =>
    match commentMap root with
    | .error e => .error e
    | .ok cm => enrichAndPrint checks depth cfg root cm

/-! ### Thread locals -/

/-- The two thread locals (src/utility.rs 23-26, 43-45). -/
structure Tls where
  source : Option Str
  cmap : Option CMap

/-- Thread locals of a fresh thread. -/
def Tls.fresh : Tls := ⟨none, none⟩

/-- `set_thread_source_code` (src/utility.rs 28-37). -/
def Tls.setSource (t : Tls) (s : Str) : R Tls :=
  if t.source.isSome then .error .alreadySet else .ok { t with source := some s }

/-- `set_thread_comment_map` (src/utility.rs 47-57). -/
def Tls.setCMap (t : Tls) (m : CMap) : R Tls :=
  if t.cmap.isSome then .error .alreadySet else .ok { t with cmap := some m }

/-- `get_source_code` (src/utility.rs 39-41). -/
def Tls.getSource (t : Tls) : R Str :=
  match t.source with
  | some s => .ok s
  | none => .error .notSet

/-- `get_comment_map` (src/utility.rs 65-67). -/
def Tls.getCMap (t : Tls) : R CMap :=
  match t.cmap with
  | some m => .ok m
  | none => .error .notSet

/-- What surrounds the formatter: the parser, the build profile and the stack. -/
structure World where
  parse : Str → Node
  checks : Bool
  depth : Nat

/-- `format_one` with its effect on the thread locals: the result and the thread locals afterwards (also after a panic).
The texts of nodes are stored in the tree, so `get_source_code` is not needed by the model; the comment map is read back
from the thread local. -/
def formatOne (wd : World) (cfg : Config) (source : Str) (t : Tls) : R Str × Tls :=
  match checkParsed (wd.parse source) with
  | .error e => (.error e, t)
  | .ok root =>
    match t.setSource source with
    | .error e => (.error e, t)
    | .ok t =>
      match commentMap root with
      | .error e => (.error e, t)
      | .ok cm =>
        match t.setCMap cm with
        | .error e => (.error e, t)
        | .ok t =>
          match t.getCMap with
          | .error e => (.error e, t)
          | .ok cm => (enrichAndPrint wd.checks wd.depth cfg root cm, t)

end Afmt
