import Verif.Collect

/-!
# Document programs

The Rust code builds documents in two phases: `X::new(node)` makes a typed node, and `build_inner` turns it into
documents while reading the comment map and marking comments as printed.  A `Prog` is the second phase as data: the
sequence of `DocBuilder` calls a node makes, including the points at which comment buckets are printed.  `Prog.build`
executes it for an indent size and a comment map and returns the document and the log of comments marked as printed.

The comment handlers (src/utility.rs 280-474, src/context.rs 338-403) are modelled here.  Where the Rust code pushes
nothing for an empty list of comments the model pushes an empty `Concat`, which prints nothing.
-/

namespace Afmt

/-! ### Comment handlers -/

/-- Separator before a comment in `handle_post_comments` (src/utility.rs 456-463) and `Punctuation` (src/context.rs
358-364, 379-385). -/
def postLead (c : Comment) : Doc :=
  if c.meta'.hasLeadingContent then txt [' ']
  else if c.meta'.hasEmptyLineAbove then emptyNewLine
  else nl

/-- Space after a comment (src/utility.rs 467-469, src/context.rs 368-370, 389-391). -/
def postTrail (c : Comment) : List Doc :=
  if c.meta'.hasTrailingContent && !c.meta'.isFollowedByBracketCompositeNode then [txt [' ']] else []

/-- `handle_post_comments` (src/utility.rs 446-474). -/
def postDocs : List Comment → List Doc
  | [] => []
  | c :: cs => postLead c :: c.build :: (postTrail c ++ postDocs cs)

/-- `handle_pre_comments` (src/utility.rs 402-444); `first` is `i == 0`. -/
def preDocs (first : Bool) : List Comment → List Doc
  | [] => []
  | c :: cs =>
    (if c.meta'.hasLeadingContent then [txt [' ']]
      else Doc.forceBreak :: (if first then [] else if c.meta'.hasEmptyLineAbove then [emptyNewLine] else [nl])) ++
    [c.build] ++
    (if c.meta'.hasTrailingContent then [txt [' ']]
      else if cs = [] then (if c.meta'.hasEmptyLineBelow then [emptyNewLine] else [nl]) else []) ++
    preDocs false cs

/-- `handle_dangling_comments` (src/utility.rs 373-400). -/
def danglingDocs : List Comment → List Doc
  | [] => []
  | c :: cs =>
    (if c.meta'.hasLeadingContent then [txt [' ']]
      else if c.meta'.hasEmptyLineAbove then [emptyNewLine]
      else if c.meta'.hasPrevNode then [nl] else []) ++
    [c.build] ++ danglingDocs cs

/-- The comment is a line comment. -/
def Comment.isLine (c : Comment) : Bool := c.type == .line

/-- `Punctuation::build_inner` (src/context.rs 338-403): block comments before, the token, then line comments from
before and the comments after. -/
def puncDocs (b : Bucket) (p : Punc) : List Doc :=
  postDocs (b.pre.filter (fun c => !c.isLine)) ++ [txt p.text] ++ postDocs (b.pre.filter Comment.isLine ++ b.post)

/-! ### Programs -/

/-- A document program. -/
inductive Prog where
  | txt (s : Str)
  | nl
  | softline
  | maybeline
  | forceBreak
  /-- line break between two body members: `empty_new_line` or `nl` -/
  | sep (blank : Bool)
  | concat (ps : List Prog)
  | group (p : Prog)
  | indent (p : Prog)
  | dedent (p : Prog)
  /-- `handle_pre_comments` for the bucket of a node -/
  | pre (id : Nat)
  /-- `handle_post_comments` -/
  | post (id : Nat)
  /-- `concat(handle_dangling_comments)` -/
  | dangling (id : Nat)
  /-- the dangling comments of the root, which are printed without being marked (src/data_model.rs 49-58) -/
  | rootDangling (id : Nat)
  /-- `Punctuation::build` -/
  | punct (p : Punc)
  /-- branch on whether the bucket has dangling comments -/
  | ifDangling (id : Nat) (p q : Prog)
  /-- a panic during the build phase -/
  | fail (e : Panic)

/-- `get_comment_bucket` (src/utility.rs 59-67). -/
def getBucket (cm : CMap) (id : Nat) : R Bucket :=
  match cm.get? id with
  | some b => .ok b
  | none => .error .missingBucket

mutual
/-- Execute a program with indent size `k` and comment map `cm`: the document and the comments marked as printed. -/
def Prog.build (k : Nat) (cm : CMap) : Prog → R (Doc × List Comment)
  | .txt s => .ok (Afmt.txt s, [])
  | .nl => .ok (Afmt.nl, [])
  | .softline => .ok (.softline, [])
  | .maybeline => .ok (.maybeline, [])
  | .forceBreak => .ok (.forceBreak, [])
  | .sep blank => .ok (if blank then Afmt.emptyNewLine else Afmt.nl, [])
  | .concat ps =>
    match Prog.builds k cm ps with
    | .ok (ds, l) => .ok (.concat ds, l)
    | .error e => .error e
  | .group p =>
    match Prog.build k cm p with
    | .ok (d, l) => .ok (Afmt.group d, l)
    | .error e => .error e
  | .indent p =>
    match Prog.build k cm p with
    | .ok (d, l) => .ok (indentDoc k d, l)
    | .error e => .error e
  | .dedent p =>
    match Prog.build k cm p with
    | .ok (d, l) => .ok (dedentDoc k d, l)
    | .error e => .error e
  | .pre id =>
    match getBucket cm id with
    | .ok b => .ok (.concat (preDocs true b.pre), b.pre)
    | .error e => .error e
  | .post id =>
    match getBucket cm id with
    | .ok b => .ok (.concat (postDocs b.post), b.post)
    | .error e => .error e
  | .dangling id =>
    match getBucket cm id with
    | .ok b => if b.dangling = [] then .error .unsupported else .ok (.concat (danglingDocs b.dangling), b.dangling)
    | .error e => .error e
  | .rootDangling id =>
    match getBucket cm id with
    | .ok b => .ok (.concat (b.dangling.map Comment.build), [])
    | .error e => .error e
  | .punct p =>
    match getBucket cm p.id with
    | .ok b => .ok (.concat (puncDocs b p), b.pre ++ b.post)
    | .error e => .error e
  | .ifDangling id p q =>
    match getBucket cm id with
    | .ok b => if b.dangling ≠ [] then Prog.build k cm p else Prog.build k cm q
    | .error e => .error e
  | .fail e => .error e
/-- Execute programs one after the other. -/
def Prog.builds (k : Nat) (cm : CMap) : List Prog → R (List Doc × List Comment)
  | [] => .ok ([], [])
  | p :: ps =>
    match Prog.build k cm p with
    | .error e => .error e
    | .ok (d, l) =>
      match Prog.builds k cm ps with
      | .error e => .error e
      | .ok (ds, l') => .ok (d :: ds, l ++ l')
end

namespace Prog

/-- text literal -/
def t (s : String) : Prog := .txt s.toList
/-- `_txt` -/
def tL (s : String) : Prog := .txt (' ' :: s.toList)
/-- `txt_` -/
def tR (s : String) : Prog := .txt (s.toList ++ [' '])
/-- `_txt_` -/
def tLR (s : String) : Prog := .txt (' ' :: (s.toList ++ [' ']))
/-- `txt_` of a computed string -/
def txtR (s : Str) : Prog := .txt (s ++ [' '])
/-- `_txt_` of a computed string -/
def txtLR (s : Str) : Prog := .txt (' ' :: (s ++ [' ']))
/-- `nil` -/
def nil : Prog := .txt []
/-- `group_concat` -/
def groupConcat (ps : List Prog) : Prog := .group (.concat ps)
/-- `group_indent` -/
def groupIndent (p : Prog) : Prog := .group (.indent p)
/-- `group_indent_concat` -/
def groupIndentConcat (ps : List Prog) : Prog := .group (.indent (.concat ps))

/-- `Insertable` on the program level. -/
structure Ins where
  pre : Option Prog
  str : Option Str
  suf : Option Prog

/-- `Insertable::new(None, Some(s), None)` -/
def Ins.s (s : String) : Ins := ⟨none, some s.toList, none⟩
/-- `Insertable::new(None, None, Some(suf))` -/
def Ins.after (p : Prog) : Ins := ⟨none, none, some p⟩
/-- `Insertable::new(None, Some(s), Some(suf))` -/
def Ins.sAfter (s : String) (p : Prog) : Ins := ⟨none, some s.toList, some p⟩
/-- `Insertable::new(Some(pre), Some(s), None)` -/
def Ins.before (p : Prog) (s : String) : Ins := ⟨some p, some s.toList, none⟩

/-- An optional program. -/
def opt : Option Prog → List Prog
  | none => []
  | some p => [p]
/-- An optional text. -/
def optT : Option Str → List Prog
  | none => []
  | some s => [.txt s]
/-- The parts of an `Insertable`. -/
def Ins.progs (x : Ins) : List Prog := opt x.pre ++ optT x.str ++ opt x.suf

/-- `intersperse` loop. -/
def intersperseParts (sep : Ins) : List Prog → List Prog
  | [] => []
  | [e] => [e]
  | e :: es => e :: (sep.progs ++ intersperseParts sep es)

/-- `DocBuilder::intersperse` (src/doc_builder.rs 73-94) on the program level, see `build_intersperse`. -/
def intersperse (elems : List Prog) (sep : Ins) : Prog :=
  match elems with
  | [] => nil
  | es => .concat (intersperseParts sep es)

/-- `DocBuilder::surround` (src/doc_builder.rs 32-71) on the program level. -/
def surround (elems : List Prog) (sep opn cls : Ins) : Prog :=
  match elems with
  | [] =>
    match opn.str, cls.str with
    | some o, some c => .concat [.txt o, .txt c]
    | _, _ => .fail .unwrapNone
  | es =>
    .concat (opt opn.pre ++ optT opn.str ++ (opt opn.suf).map .indent ++ [.indent (intersperse es sep)] ++
      opt cls.pre ++ optT cls.str ++ opt cls.suf)

/-- `DocBuilder::group_surround` (src/doc_builder.rs 22-30). -/
def groupSurround (elems : List Prog) (sep opn cls : Ins) : Prog := .group (surround elems sep opn cls)

/-- loop of `intersperse_body_members` -/
def bodyParts : List (Bool × Prog) → List Prog
  | [] => []
  | [(_, m)] => [m]
  | (tr, m) :: ms => m :: .sep tr :: bodyParts ms

/-- `DocBuilder::intersperse_body_members` (src/doc_builder.rs 119-140). -/
def intersperseBody (ms : List (Bool × Prog)) : Prog :=
  match ms with
  | [] => nil
  | ms => .concat (bodyParts ms)

/-- `DocBuilder::surround_body_members` (src/doc_builder.rs 96-117) with `{` and `}` (the only arguments used). -/
def surroundBody (ms : List (Bool × Prog)) : Prog :=
  match ms with
  | [] => .concat [t "{", .nl, t "}"]
  | ms => .concat [t "{", .indent .nl, .indent (intersperseBody ms), .nl, t "}"]

/-- `build_with_comments` (src/utility.rs 280-299): with dangling comments the function returns before the post
comments. -/
def withComments (id : Nat) (members : List Prog) : Prog :=
  .concat [.pre id, .ifDangling id (.dangling id) (.concat (members ++ [.post id]))]

/-- The punctuation of a node context, if any. -/
def punctOpt : Option Punc → List Prog
  | none => []
  | some p => [.punct p]

/-- `build_with_comments_and_punc` (src/utility.rs 319-337) with `build_with_comments_core` (301-317). -/
def withCommentsAndPunc (id : Nat) (punc : Option Punc) (members : List Prog) : Prog :=
  .concat ([.pre id, .ifDangling id (.dangling id) (.concat members), .ifDangling id (.concat []) (.post id)] ++
    punctOpt punc)

/-- `build_with_comments_and_punc_attached` (src/utility.rs 340-359). -/
def withCommentsAndPuncAttached (id : Nat) (punc : Option Punc) (members : List Prog) : Prog :=
  .concat ([.pre id, .ifDangling id (.dangling id) (.concat members)] ++ punctOpt punc ++
    [.ifDangling id (.concat []) (.post id)])

/-- `handle_dangling_comments_in_bracket_surround` (src/utility.rs 361-371). -/
def danglingBracket (id : Nat) : Prog :=
  .concat [t "{", .indent .nl, .indent (.dangling id), .nl, t "}"]

end Prog

end Afmt
