import Verif.Comment

/-!
# Attaching comments to nodes (`collect_comments`, src/utility.rs 151-278)
-/

namespace Afmt

/-- State of the loop over the children (src/utility.rs 169-172). -/
structure CollectSt where
  cm : CMap
  pending : List Comment
  last : Option (Nat × Nat)

/-- `bucket.pre_comments.append(cs)`. -/
def Bucket.addPre (cs : List Comment) (b : Bucket) : Bucket := { b with pre := b.pre ++ cs }
/-- `bucket.post_comments.append(cs)`. -/
def Bucket.addPost (cs : List Comment) (b : Bucket) : Bucket := { b with post := b.post ++ cs }
/-- `bucket.dangling_comments.append(cs)`. -/
def Bucket.addDangling (cs : List Comment) (b : Bucket) : Bucket := { b with dangling := b.dangling ++ cs }

/-- Decision for one comment (src/utility.rs 177-231); `child` is the comment node, `rights` its right siblings.  The
peek loop over the following siblings skips extras, i.e. looks at the first right sibling that is no extra. -/
def attachComment (c : Comment) (child : Node) (rights : List Node) (st : CollectSt) : CollectSt :=
  match st.last with
  | some (lastId, lastRow) =>
    match rights.find? (fun s => !s.extra) with
    | none => { st with cm := st.cm.update (Bucket.addPost [c]) lastId }
    | some sibling =>
      if isPunctuationKind sibling.kind then
        { st with cm := st.cm.update (Bucket.addPre [c]) sibling.id }
      else if child.endRow = lastRow then
        { st with cm := st.cm.update (Bucket.addPost [c]) lastId }
      else { st with pending := st.pending ++ [c] }
  | none => { st with pending := st.pending ++ [c] }

/-- Pending comments go to the `pre_comments` of an associable child (src/utility.rs 236-243). -/
def flushPending (childId : Nat) (st : CollectSt) : CMap :=
  match st.pending with
  | [] => st.cm
  | ps => st.cm.update (Bucket.addPre ps) childId

/-- Leftover pending comments (src/utility.rs 258-275). -/
def finishPending (currentId : Nat) (st : CollectSt) : CMap :=
  match st.last with
  | some (lastId, _) => st.cm.update (Bucket.addPost st.pending) lastId
  | none => st.cm.update (Bucket.addDangling st.pending) currentId

/-- Nodes that are looked into (negation of the guard in src/utility.rs 154-156). -/
def isVisited (named extra : Bool) (kind : String) : Bool :=
  !((!named || extra) && !isAssociableUnnamedKind kind)

mutual
/-- `collect_comments` (src/utility.rs 151-278). -/
def collect : Node → CMap → R CMap
  | .mk id kind named extra _ _ _ _ _ _ _ children, cm =>
    if !isVisited named extra kind then .ok cm
    else
      let cm := cm.update (fun b => b) id
      match children with
      | [] => .ok cm
      | c :: cs => do
        let st ← collectKids [] (c :: cs) ⟨cm, [], none⟩
        .ok (finishPending id st)
/-- The loop over the children (src/utility.rs 174-256); `lefts` are the children already seen, nearest first. -/
def collectKids (lefts : List Node) : List Node → CollectSt → R CollectSt
  | [], st => .ok st
  | child :: rights, st => do
    if child.extra then
      let c ← Comment.fromNode child lefts rights
      collectKids (child :: lefts) rights (attachComment c child rights st)
    else if child.named || isAssociableUnnamedKind child.kind then
      let cm ← collect child (flushPending child.id st)
      collectKids (child :: lefts) rights ⟨cm, [], some (child.id, child.endRow)⟩
    else collectKids (child :: lefts) rights st
end

/-- The comment map of a tree (src/formatter.rs: `collect_comments(&mut ast_tree.walk(), &mut HashMap::new())`). -/
def commentMap (root : Node) : R CMap := collect root []

end Afmt
