import Verif.CollectSpec

/-!
# Properties C14, C15, C16: every comment is attached to exactly one place
-/

namespace Afmt

/-- Tree nodes for examples: a named node. -/
def exNode (id : Nat) (kind : String) (row endRow : Nat) (text : String) (children : List Node) : Node :=
  { id, kind, named := true, extra := false, err := false, field := none, startRow := row, endRow := endRow,
    startByte := 0, endByte := 0, text := text.toList, children }
/-- Tree nodes for examples: a token. -/
def exTok (id : Nat) (kind : String) (row : Nat) : Node :=
  { id, kind, named := false, extra := false, err := false, field := none, startRow := row, endRow := row,
    startByte := 0, endByte := 0, text := kind.toList, children := [] }
/-- Tree nodes for examples: a comment. -/
def exComment (id : Nat) (line : Bool) (row : Nat) (text : String) : Node :=
  { id, kind := if line then "line_comment" else "block_comment", named := true, extra := true, err := false,
    field := none, startRow := row, endRow := row, startByte := 0, endByte := 0, text := text.toList, children := [] }

/-- `x /*a*/ ; // b` and below `y`. -/
def exTree : Node := exNode 1 "parser_output" 0 3 "" [
  exNode 2 "stmt" 0 0 "" [exNode 3 "identifier" 0 0 "x" [], exComment 4 false 0 "/*a*/", exTok 5 ";" 0],
  exComment 6 true 0 "// b ", exComment 7 true 1 "// c", exNode 8 "stmt" 3 3 "y" []]

theorem exTree_closed : exTree.Closed := by
  simp [exTree, exNode, exComment, exTok, Node.Closed, kidsClosed, Node.associable]

/-- **C14**: collecting succeeds exactly if every extra is a line or block comment, and then every comment of the
source is attached exactly once (the comments in the map are, as multiset, the comments of the tree), with its text
(up to trailing white space) and its kind. -/
theorem C14_every_comment_attached_once (root : Node) (hc : root.Closed) (hn : root.named = true)
    (he : root.extra = false) :
    ((∃ cm, commentMap root = .ok cm) ↔ ∀ o ∈ root.extras, o.node.isCommentKind = true) ∧
    ∀ cm, commentMap root = .ok cm → cm.all.Perm (root.extras.map Occ.comment) := by
  have hv : isVisited root.named root.extra root.kind = true := by simp [isVisited, hn, he]
  refine ⟨⟨?_, fun h => collect_ok root [] h⟩, ?_⟩
  · rintro ⟨cm, h⟩; exact collect_kinds root [] cm h hc hv
  · intro cm h
    simpa [CMap.all] using collect_conserves root [] cm h hc hv

/-- The attached comment carries the source text up to trailing white space. -/
theorem C14_text_kept (o : Occ) : o.comment.value = trimEnd o.node.text ∧ o.comment.id = o.node.id ∧
    (o.comment.type = .line ↔ o.node.kind = "line_comment") := by
  simp only [Occ.comment, true_and, beq_iff_eq]
  split <;> simp_all

example : (∀ o ∈ exTree.extras, o.node.isCommentKind = true) ∧ exTree.extras.length = 3 := by decide
example : (commentMap exTree).toOption.map (fun m => m.all.map (fun c => (c.id, String.ofList c.value))) =
    some [(6, "// b"), (4, "/*a*/"), (7, "// c")] := by decide

/-- **C14** (where): every list of comments in the map consists of exactly those comments of the source whose owner
(described by `Occ.owner` from the siblings alone) is that list. -/
theorem C14_owner (root : Node) (hc : root.Closed) (hn : root.named = true) (he : root.extra = false) (cm : CMap)
    (h : commentMap root = .ok cm) (x : Slot) :
    (cm.slot x).Perm ((root.extras.filter (fun o => o.owner == x)).map Occ.comment) := by
  have hv : isVisited root.named root.extra root.kind = true := by simp [isVisited, hn, he]
  have := collect_slots false root [] cm h hc hv (by simp) x
  have e : CMap.slot [] x = [] := by cases x <;> rfl
  simpa [Sim, e] using this

/-- **C14** (locality): the owner of a comment is its parent or one of its siblings that is no comment. -/
theorem C14_owner_is_near (o : Occ) :
    (o.owner = .dangling o.parent ∧ ∀ s ∈ o.lefts ++ o.rights, s.associable = false) ∨
    (∃ s ∈ o.rights, s.extra = false ∧ o.owner = .pre s.id) ∨
    (∃ s ∈ o.lefts, s.extra = false ∧ o.owner = .post s.id) := by
  have hfind : ∀ (l : List Node) s, l.find? (·.associable) = some s → s ∈ l ∧ s.extra = false := by
    intro l s h
    refine ⟨List.mem_of_find?_eq_some h, ?_⟩
    have : s.associable = true := by simpa using List.find?_some h
    simp only [Node.associable, Bool.and_eq_true, Bool.not_eq_true'] at this
    exact this.1
  have hfar : farOwner o.parent o.lefts o.rights = o.owner →
      (o.owner = .dangling o.parent ∧ ∀ s ∈ o.lefts ++ o.rights, s.associable = false) ∨
      (∃ s ∈ o.rights, s.extra = false ∧ o.owner = .pre s.id) ∨
      (∃ s ∈ o.lefts, s.extra = false ∧ o.owner = .post s.id) := by
    intro h
    rw [← h]
    unfold farOwner
    cases hr : o.rights.find? (·.associable) with
    | some s => right; left; exact ⟨s, (hfind _ _ hr).1, (hfind _ _ hr).2, rfl⟩
    | none =>
      cases hl : o.lefts.find? (·.associable) with
      | some s => right; right; exact ⟨s, (hfind _ _ hl).1, (hfind _ _ hl).2, rfl⟩
      | none =>
        left
        refine ⟨rfl, fun s hs => ?_⟩
        rw [List.find?_eq_none] at hr hl
        rcases List.mem_append.1 hs with hs | hs
        · simpa using hl s hs
        · simpa using hr s hs
  by_cases h0 : o.owner = farOwner o.parent o.lefts o.rights
  · exact hfar h0.symm
  · unfold Occ.owner at h0 ⊢
    cases hl : o.lefts.find? (·.associable) with
    | none => simp [hl] at h0
    | some l =>
      have := hfind _ _ hl
      simp only [hl] at h0 ⊢
      cases hr : o.rights.find? (fun s => !s.extra) with
      | none => right; right; exact ⟨l, this.1, this.2, rfl⟩
      | some s =>
        simp only [hr] at h0 ⊢
        have hs : s.extra = false := by simpa using List.find?_some hr
        split
        · right; left; exact ⟨s, List.mem_of_find?_eq_some hr, hs, rfl⟩
        · rename_i hp
          rw [if_neg hp] at h0
          split
          · right; right; exact ⟨l, this.1, this.2, rfl⟩
          · rename_i hrow; rw [if_neg hrow] at h0; exact absurd rfl h0

example : (exTree.extras.map Occ.owner) = [.pre 5, .post 2, .pre 8] := by decide

/-- **C15**: after collecting there is a bucket exactly for the ids of the nodes reachable from the root through named
nodes and `,` `;` `else` tokens; and no id has two buckets. -/
theorem C15_every_code_node_has_bucket (root : Node) (hn : root.named = true) (he : root.extra = false) (cm : CMap)
    (h : commentMap root = .ok cm) (k : Nat) :
    ((∃ b, cm.get? k = some b) ↔ ∃ m ∈ root.codeNodes, m.id = k) ∧ (cm.map (·.1)).Nodup := by
  have hv : isVisited root.named root.extra root.kind = true := by simp [isVisited, hn, he]
  refine ⟨?_, collect_nodup root [] cm h (by simp [KeysNodup])⟩
  have := collect_keys root [] cm h hv k
  rw [← Option.isSome_iff_exists]
  simpa [CMap.HasKey, CMap.get?] using this

example : exTree.codeNodes.map (·.id) = [1, 2, 3, 5, 8] := by decide

/-- Witness against C16 in general: `x /*1*/ ( /*2*/ ;` with the first comment on the next row. -/
def exGap : Node := exNode 1 "parser_output" 0 3 "" [
  exNode 2 "identifier" 0 0 "x" [], exComment 3 false 1 "/*1*/", exTok 4 "(" 1, exComment 5 false 1 "/*2*/",
  exTok 6 ";" 1]

/-- **C16 does not hold for all trees**: two comments separated by a bare token can be attached in reversed order. -/
theorem C16_order_can_be_reversed : ∃ root : Node, root.Closed ∧ root.named = true ∧ root.extra = false ∧
    ∃ cm, commentMap root = .ok cm ∧ ∃ x, ¬ (cm.slot x).Sublist (root.extras.map Occ.comment) := by
  refine ⟨exGap, by simp [exGap, exNode, exComment, exTok, Node.Closed, kidsClosed, Node.associable,
    isAssociableUnnamedKind, isPunctuationKind], rfl, rfl, ?_⟩
  cases h : commentMap exGap with
  | error e =>
    have : (commentMap exGap).isOk = true := by decide
    rw [h] at this; cases this
  | ok cm =>
    refine ⟨cm, rfl, .pre 6, ?_⟩
    have h1 : (commentMap exGap).toOption.map (fun m => (m.slot (.pre 6)).map (·.id)) = some [5, 3] := by decide
    rw [h] at h1
    simp only [Except.toOption, Option.map_some, Option.some.injEq] at h1
    have h2 : (exGap.extras.map Occ.comment).map (·.id) = [3, 5] := by decide
    intro hs
    have := hs.map (·.id)
    rw [h1, h2] at this
    revert this; decide

/-- **C16, partial**: in every tree whose siblings end on non-decreasing rows and in which no bare token separates two
comments of which the second directly precedes `,`, `;` or the end of the parent, every list of comments is *equal* to
the comments it owns in source order.  Missing for the full claim: the excluded trees, for which it is false (see
`C16_order_can_be_reversed`). -/
theorem C16_source_order_partial (root : Node) (hc : root.Closed) (hn : root.named = true) (he : root.extra = false)
    (ho : ∀ m ∈ root.codeNodes, KidsOrderly m.children) (cm : CMap) (h : commentMap root = .ok cm) (x : Slot) :
    cm.slot x = (root.extras.filter (fun o => o.owner == x)).map Occ.comment ∧
    (cm.slot x).Sublist (root.extras.map Occ.comment) := by
  have hv : isVisited root.named root.extra root.kind = true := by simp [isVisited, hn, he]
  have := collect_slots true root [] cm h hc hv (fun _ => ho) x
  have e : CMap.slot [] x = [] := by cases x <;> rfl
  simp only [Sim, if_true, e, List.nil_append] at this
  refine ⟨this, ?_⟩
  rw [this]
  exact (List.filter_sublist (l := root.extras)).map _

/-- The hypothesis of `C16_source_order_partial` holds for a tree with comments. -/
example : ∀ m ∈ exTree.codeNodes, KidsOrderly m.children := by
  have hno : ∀ kids : List Node, (∀ z ∈ kids, z.extra = true ∨ z.associable = true) → NoTokenGap kids := by
    intro kids h ys c1 zs c2 ws e _ _ _ h4 ⟨z, hz, hz'⟩
    have hm : z ∈ kids := by rw [e]; simp [hz]
    rcases h z hm with h | h
    · rw [hz'] at h; cases h
    · rw [h4 z hz] at h; cases h
  intro m hm
  simp only [exTree, exNode, exComment, exTok, Node.codeNodes, kidsCode, Node.associable, isAssociableUnnamedKind,
    isPunctuationKind] at hm
  simp at hm
  rcases hm with rfl | rfl | rfl | rfl | rfl <;>
    exact ⟨by simp, hno _ (by simp [Node.associable, isAssociableUnnamedKind, isPunctuationKind])⟩

end Afmt
