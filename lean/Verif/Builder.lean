import Verif.Doc

/-!
# The document builder (src/doc_builder.rs)

`k` is `config.indent_size`.  Allocation in the arena is the identity.
-/

namespace Afmt

/-- `Insertable` (src/doc_builder.rs 248-252). -/
structure Insertable where
  pre : Option Doc
  str : Option Str
  suf : Option Doc

/-- `Insertable::new` (255-265). -/
def Insertable.new (pre : Option Doc) (s : Option Str) (suf : Option Doc) : Insertable := ⟨pre, s, suf⟩

/-- `txt` (192-196): width is the byte length. -/
def txt (s : Str) : Doc := .text s (byteLen s)
/-- `_txt` (198-202). -/
def txtL (s : Str) : Doc := txt (' ' :: s)
/-- `txt_` (204-208). -/
def txtR (s : Str) : Doc := txt (s ++ [' '])
/-- `_txt_` (210-214). -/
def txtLR (s : Str) : Doc := txt (' ' :: (s ++ [' ']))
/-- `nil` (164-166). -/
def nilDoc : Doc := txt []
/-- `nl` (168-170). -/
def nl : Doc := .newline
/-- `empty_new_line` (184-186) with the private `nl_with_no_indent` (188-190). -/
def emptyNewLine : Doc := .concat [.newlineWithNoIndent, .newline]
/-- `indent` (220-223). -/
def indentDoc (k : Nat) (d : Doc) : Doc := .indent k d
/-- `dedent` (225-228). -/
def dedentDoc (k : Nat) (d : Doc) : Doc := .dedent k d
/-- `group` (243-245) via `choice` (239-241) and `flat` (216-218). -/
def group (d : Doc) : Doc := .choice (.flat d) d
/-- `group_concat` (160-162). -/
def groupConcat (ds : List Doc) : Doc := group (.concat ds)
/-- `group_indent` (156-158). -/
def groupIndent (k : Nat) (d : Doc) : Doc := group (indentDoc k d)
/-- `group_indent_concat` (149-154). -/
def groupIndentConcat (k : Nat) (ds : List Doc) : Doc := groupIndent k (.concat ds)

/-- The documents an `Option` of a document contributes (`if let Some(n) = .. { docs.push(n) }`). -/
def optDoc : Option Doc → List Doc
  | none => []
  | some d => [d]

/-- The documents an `Option<String>` contributes (`if let Some(n) = .. { docs.push(self.txt(n)) }`). -/
def optTxt : Option Str → List Doc
  | none => []
  | some s => [txt s]

/-- `Insertable::build_inner` (267-279); the same three pushes occur inline in `intersperse` (81-89). -/
def Insertable.docs (x : Insertable) : List Doc := optDoc x.pre ++ optTxt x.str ++ optDoc x.suf

/-- The loop of `intersperse` (79-92): before every element but the first the separator is pushed. -/
def intersperseParts (sep : Insertable) : List Doc → List Doc
  | [] => []
  | [e] => [e]
  | e :: es => e :: (sep.docs ++ intersperseParts sep es)

/-- `intersperse` (73-94). -/
def intersperse (elems : List Doc) (sep : Insertable) : Doc :=
  if elems = [] then nilDoc else .concat (intersperseParts sep elems)

/-- `surround` (32-71).  `none` is the panic of `open.str.unwrap()` / `close.str.unwrap()` on an empty list. -/
def surround (k : Nat) (elems : List Doc) (sep opn cls : Insertable) : Option Doc :=
  if elems = [] then
    match opn.str, cls.str with
    | some o, some c => some (.concat [txt o, txt c])
    | _, _ => none
  else
    some (.concat (optDoc opn.pre ++ optTxt opn.str ++ (optDoc opn.suf).map (indentDoc k) ++
      [indentDoc k (intersperse elems sep)] ++
      optDoc cls.pre ++ optTxt cls.str ++ optDoc cls.suf))

/-- `group_surround` (22-30). -/
def groupSurround (k : Nat) (elems : List Doc) (sep opn cls : Insertable) : Option Doc :=
  (surround k elems sep opn cls).map group

/-- Loop of `intersperse_body_members` (127-138) over already built members and their `has_trailing_newline`. -/
def bodyMembersParts : List (Bool × Doc) → List Doc
  | [] => []
  | [(_, m)] => [m]
  | (t, m) :: ms => m :: (if t then emptyNewLine else nl) :: bodyMembersParts ms

/-- `intersperse_body_members` (119-140). -/
def intersperseBodyMembers (ms : List (Bool × Doc)) : Doc :=
  match ms with
  | [] => nilDoc
  | ms => .concat (bodyMembersParts ms)

/-- `surround_body_members` (96-117). -/
def surroundBodyMembers (k : Nat) (ms : List (Bool × Doc)) (opn cls : Str) : Doc :=
  match ms with
  | [] => .concat [txt opn, nl, txt cls]
  | ms => .concat [txt opn, indentDoc k nl, indentDoc k (intersperseBodyMembers ms), nl, txt cls]

end Afmt
