import Verif.Tree
import Verif.Builder

/-!
# Comments and comment buckets (src/context.rs)
-/

namespace Afmt

/-- `CommentType` (src/context.rs 65-69). -/
inductive CommentType where
  | line
  | block
  deriving DecidableEq, Repr

/-- `CommentMetadata` (src/context.rs 225-233). -/
structure CommentMetadata where
  hasLeadingContent : Bool
  hasTrailingContent : Bool
  hasEmptyLineAbove : Bool
  hasEmptyLineBelow : Bool
  hasPrevNode : Bool
  isFollowedByBracketCompositeNode : Bool
  deriving DecidableEq, Repr

/-- `Comment` (src/context.rs 71-78).  `id` is the node id of the comment: it stands for the identity of the `Cell`
`is_printed`, which the model replaces by a log of printed comments. -/
structure Comment where
  id : Nat
  value : Str
  type : CommentType
  meta' : CommentMetadata
  deriving DecidableEq, Repr

/-- `CommentMetadata::from` (src/context.rs 235-285), given the node, its previous and its next named sibling. -/
def CommentMetadata.of (n : Node) (t : CommentType) (prev next : Option Node) : CommentMetadata :=
  { hasPrevNode := prev.isSome
    hasLeadingContent := match prev with
      | some p => n.startRow == p.endRow
      | none => false
    hasTrailingContent := match t with
      | .line => false
      | .block => match next with
        | some x => n.endRow == x.startRow
        | none => false
    hasEmptyLineAbove := match prev with
      | some p => decide (n.startRow > p.endRow + 1)
      | none => false
    hasEmptyLineBelow := match next with
      | some x => decide (n.endRow < x.startRow - 1)
      | none => false
    isFollowedByBracketCompositeNode := match next with
      | some x => isBracketCompositeKind x.kind
      | none => false }

/-- `Comment::from_node` (src/context.rs 81-103), given the siblings to the left (nearest first) and to the right. -/
def Comment.fromNode (n : Node) (lefts rights : List Node) : R Comment :=
  let prev := lefts.find? (·.named)
  let next := rights.find? (·.named)
  let value := trimEnd n.text
  if n.kind = "line_comment" then
    .ok { id := n.id, value, type := .line, meta' := CommentMetadata.of n .line prev next }
  else if n.kind = "block_comment" then
    .ok { id := n.id, value, type := .block, meta' := CommentMetadata.of n .block prev next }
  else .error .unknownNode

/-- First line handling of JavaDoc comments (src/context.rs 150-164): content after the opening moves to its own line.
`first_line[3..]` is taken on bytes; the first three characters are `/**`, so it is `drop 3`. -/
def splitFirstLine (lines : List Str) : List Str :=
  match lines with
  | [] => []
  | l :: ls =>
    let first := trim l
    if byteLen first > 3 then
      let content := trim (first.drop 3)
      if content ≠ [] then "/**".toList :: content :: ls else l :: ls
    else l :: ls

/-- Rendering of one JavaDoc line after the first (src/context.rs 172-204); `isLast`: last line. -/
def javadocLine (isLast : Bool) (line : Str) : List Str :=
  let trimmed := trim line
  if isLast then
    match stripSuffix "*/".toList trimmed with
    | some beforeEnd =>
      let content := trim beforeEnd
      if content = [] then [" */".toList] else [" * ".toList ++ content, " */".toList]
    | none => [" */".toList]
  else if trimmed = [] then [" *".toList]
  else
    match stripPrefix ['*'] trimmed with
    | some afterStar =>
      let content := trimStart afterStar
      if content = [] then [" *".toList] else [" * ".toList ++ content]
    | none => [" * ".toList ++ trimmed]

/-- All lines after the first. -/
def javadocTail : List Str → List Str
  | [] => []
  | [l] => javadocLine true l
  | l :: ls => javadocLine false l ++ javadocTail ls

/-- The output lines of a block comment (src/context.rs 145-220).  In the Rust code the lines are pushed as `txt` with
`nl` in between; the model computes the list of lines and `linesDoc` interleaves the newlines. -/
def blockLines (value : Str) : List Str :=
  let lines := splitNl value
  if "/**".toList.isPrefixOf value then
    match splitFirstLine lines with
    | [] => []
    | l :: ls => trim l :: javadocTail ls
  else lines.map trim

/-- Text lines separated by newlines. -/
def linesDoc : List Str → List Doc
  | [] => []
  | [l] => [txt l]
  | l :: ls => txt l :: nl :: linesDoc ls

/-- `Comment::build` (src/context.rs 138-223 wrapped by `DocBuild::build`). -/
def Comment.build (c : Comment) : Doc :=
  match c.type with
  | .line => .concat [txt c.value, nl]
  | .block => .concat (linesDoc (blockLines c.value))

/-- `CommentBucket` (src/context.rs 48-63). -/
structure Bucket where
  pre : List Comment
  post : List Comment
  dangling : List Comment
  deriving DecidableEq, Repr

/-- `CommentBucket::new`. -/
def Bucket.empty : Bucket := ⟨[], [], []⟩

/-- All comments of a bucket, in the order used by `assert_no_missing_comments` (src/utility.rs 125-131). -/
def Bucket.all (b : Bucket) : List Comment := b.pre ++ b.post ++ b.dangling

/-- `CommentMap` = `HashMap<usize, CommentBucket>` (src/context.rs 14), as association list without duplicate keys. -/
abbrev CMap := List (Nat × Bucket)

/-- `HashMap::get`. -/
def CMap.get? (m : CMap) (id : Nat) : Option Bucket := (m.find? (fun p => p.1 == id)).map (·.2)

/-- `map.entry(id).or_insert_with(CommentBucket::new)` followed by an update of the bucket. -/
def CMap.update (f : Bucket → Bucket) (id : Nat) : CMap → CMap
  | [] => [(id, f Bucket.empty)]
  | (k, b) :: m => if k = id then (k, f b) :: m else (k, b) :: CMap.update f id m

/-- All comments in the map (`values().flat_map(..)`, src/utility.rs 123-132). -/
def CMap.all (m : CMap) : List Comment := (m.map (fun p => p.2.all)).flatten

/-- `PuncuationType` and `Punctuation` (src/context.rs 287-291, 405-409). -/
structure Punc where
  isComma : Bool
  id : Nat
  deriving DecidableEq, Repr

/-- `Punctuation::new` (src/context.rs 294-306). -/
def Punc.new (l : Loc) : R Punc :=
  if l.kind = "," then .ok ⟨true, l.id⟩
  else if l.kind = ";" then .ok ⟨false, l.id⟩
  else .error .unknownNode

/-- The punctuation for a node of which `is_punctuation_node` holds (`Punctuation::new` cannot panic there). -/
def Punc.ofLoc (l : Loc) : Punc := ⟨l.kind == ",", l.id⟩

/-- Search loop of `Punctuation::from` over the right siblings. -/
def Punc.search : List Loc → Option Punc
  | [] => none
  | s :: ss =>
    if s.extra then Punc.search ss
    else if isPunctuationKind s.kind then some (Punc.ofLoc s)
    else none

/-- `Punctuation::from` (src/context.rs 309-324): the punctuation following the node, skipping extras. -/
def Punc.from (l : Loc) : Option Punc := Punc.search l.rightSiblings

/-- `Punctuation::from_inner` (src/context.rs 327-335): the first punctuation among the children. -/
def Punc.fromInner (l : Loc) : Option Punc := (l.children.find? (fun c => isPunctuationKind c.kind)).map Punc.ofLoc

/-- Text of the punctuation (src/context.rs 373-376). -/
def Punc.text (p : Punc) : Str := if p.isComma then ",".toList else ";".toList

end Afmt
