import Verif.CommentText
import Verif.PropsFormat

/-!
# Properties of comment printing: C20 - C25
-/

namespace Afmt

/-! ## C20 -/

/-- `log` are the comments marked as printed, `d` the document; printed on its own under any width it consists of exactly
the comments `cs`, in this order, each as a whole, and otherwise of blanks. -/
def PrintsExactly (d : Doc) (log cs : List Comment) : Prop :=
  log = cs ∧ ∀ w, ∃ out ss, prettyPrint w d = some out ∧ out = renderSegs ss ∧ itemsOf ss = cs.map Item.comment ∧ SegsOk ss

theorem printsExactly_of {d : Doc} {cs : List Comment} (h : Doc.Items d (commentItems cs)) : PrintsExactly d cs cs := by
  refine ⟨rfl, fun w => ?_⟩
  obtain ⟨ss, h1, h2, h3⟩ := layout_segments w h
  exact ⟨_, ss, prettyPrint_eq w d, h1, h2, h3⟩

/-- **C20**: printing the comments before, after or inside a node prints every comment of that list exactly once and in
order, nothing else, and marks exactly these comments as printed.  (Inside: on an empty list the program panics.) -/
theorem C20_comment_groups (k : Nat) (cm : CMap) (id : Nat) (b : Bucket) (hb : cm.get? id = some b)
    (ht : ∀ c ∈ b.all, c.Tidy) :
    (∃ d log, Prog.build k cm (.pre id) = .ok (d, log) ∧ PrintsExactly d log b.pre) ∧
    (∃ d log, Prog.build k cm (.post id) = .ok (d, log) ∧ PrintsExactly d log b.post) ∧
    (b.dangling ≠ [] → ∃ d log, Prog.build k cm (.dangling id) = .ok (d, log) ∧ PrintsExactly d log b.dangling) ∧
    (b.dangling = [] → ∃ e, Prog.build k cm (.dangling id) = .error e) := by
  have hg : getBucket cm id = .ok b := by simp [getBucket, hb]
  have h1 : ∀ c ∈ b.pre, c.Tidy := fun c hc => ht c (by simp [Bucket.all, hc])
  have h2 : ∀ c ∈ b.post, c.Tidy := fun c hc => ht c (by simp [Bucket.all, hc])
  have h3 : ∀ c ∈ b.dangling, c.Tidy := fun c hc => ht c (by simp [Bucket.all, hc])
  refine ⟨⟨_, _, by simp only [Prog.build, hg], printsExactly_of (.concat (items_preDocs b.pre h1 true))⟩,
    ⟨_, _, by simp only [Prog.build, hg], printsExactly_of (.concat (items_postDocs b.post h2))⟩, fun hne => ?_, fun he => ?_⟩
  · exact ⟨_, _, by simp only [Prog.build, hg, if_neg hne], printsExactly_of (.concat (items_danglingDocs b.dangling h3))⟩
  · exact ⟨_, by simp only [Prog.build, hg, if_pos he]; rfl⟩

/-- Example comment. -/
def exC (id : Nat) (v : String) (t : CommentType) (lead above trail : Bool) : Comment :=
  { id, value := v.toList, type := t, meta' :=
    { hasLeadingContent := lead, hasTrailingContent := trail, hasEmptyLineAbove := above, hasEmptyLineBelow := false,
      hasPrevNode := true, isFollowedByBracketCompositeNode := false } }

/-- Example bucket with comments in all three lists. -/
def exBucket : Bucket :=
  ⟨[exC 1 "/* a */" .block false false true, exC 2 "// b" .line false true false], [exC 3 "// c" .line true false false],
    [exC 4 "// d" .line false false false]⟩

example : (CMap.get? [(7, exBucket)] 7 = some exBucket) ∧ ∀ c ∈ exBucket.all, c.Tidy := by
  refine ⟨by decide, ?_⟩
  simp only [exBucket, Bucket.all, exC, Comment.Tidy]
  decide

/-! ## C21 -/

/-- **C21**: a comma or semicolon with comments around it prints: the block comments from before, the character, the line
comments from before, the comments from after; each comment exactly once, in unchanged order within each class, and all
of them are marked as printed. -/
theorem C21_punctuation_not_swallowed (k : Nat) (cm : CMap) (p : Punc) (b : Bucket) (hb : cm.get? p.id = some b)
    (ht : ∀ c ∈ b.all, c.Tidy) :
    ∃ d log, Prog.build k cm (.punct p) = .ok (d, log) ∧ log = b.pre ++ b.post ∧
      ∀ w, ∃ out ss, prettyPrint w d = some out ∧ out = renderSegs ss ∧ SegsOk ss ∧
        itemsOf ss = (b.pre.filter (fun c => c.type == .block)).map Item.comment ++
          [Item.code (if p.isComma then [','] else [';'])] ++
          (b.pre.filter (fun c => c.type == .line) ++ b.post).map Item.comment := by
  have hg : getBucket cm p.id = .ok b := by simp [getBucket, hb]
  refine ⟨.concat (puncDocs b p), _, by simp only [Prog.build, hg], rfl, fun w => ?_⟩
  obtain ⟨ss, h1, h2, h3⟩ := layout_segments w (.concat (items_puncDocs b p ht))
  refine ⟨_, ss, prettyPrint_eq w _, h1, h3, ?_⟩
  rw [h2]
  have e1 : (fun c : Comment => !c.isLine) = (fun c => c.type == .block) := by
    funext c; unfold Comment.isLine; cases c.type <;> rfl
  have e2 : codeItem p.text = [Item.code (if p.isComma then [','] else [';'])] := by
    unfold Punc.text codeItem; cases p.isComma <;> decide
  rw [e2, e1]
  have e3 : Comment.isLine = (fun c => c.type == .line) := rfl
  simp [commentItems, e3]

example : (CMap.get? [(7, exBucket)] (Punc.mk true 7).id = some exBucket) ∧
    (match Prog.build 2 [(7, exBucket)] (.punct ⟨true, 7⟩) with
      | .ok (d, _) => prettyPrint 80 d
      | .error _ => none) = some "\n/* a */ ,\n\n// b\n // c\n".toList := by decide

/-! ## C22 -/

/-- **C22**: a line comment is printed verbatim except that white space at its end is removed. -/
theorem C22_line_comment_text (n : Node) (l r : List Node) (c : Comment) (hk : n.kind = "line_comment")
    (h : Comment.fromNode n l r = .ok c) :
    ∃ v ws : Str, n.text = v ++ ws ∧ (∀ x ∈ ws, isWs x = true) ∧ (∀ x ∈ v.getLast?, isWs x = false) ∧
      ∀ w, prettyPrint w c.build = some (v ++ ['\n']) := by
  obtain ⟨ws, h1, h2, h3⟩ := trimEnd_split n.text
  have hc : c.value = trimEnd n.text ∧ c.type = .line := by
    simp only [Comment.fromNode, hk, if_true] at h
    cases h; exact ⟨rfl, rfl⟩
  refine ⟨trimEnd n.text, ws, h1, h2, h3, fun w => ?_⟩
  rw [prettyPrint_eq, layout, pr_comment]
  have hv : c.value ≠ [' '] := ne_space_of_not_ends (by rw [hc.1]; exact trimEnd_not_endsWithSpace _)
  rw [hc.1] at hv
  simp [commentOps, hc.2, Op.run, PSt.putText, hv, PSt.flush, PSt.init, spaces, hc.1]

example : ∃ c, Comment.fromNode (exComment 2 true 0 "// y \t ") [] [] = .ok c ∧
    prettyPrint 80 c.build = some "// y\n".toList := ⟨_, rfl, by decide⟩

/-! ## C23 -/

/-- **C23**: render a block comment (plain or JavaDoc) at any indentation `i` and read the rendered text back as a comment:
at every indentation it is rendered like the original. -/
theorem C23_reformat_block_comment (n n' : Node) (l r l' r' : List Node) (c c' : Comment) (i : Nat)
    (hk : n.kind = "block_comment") (hk' : n'.kind = "block_comment") (hs : "/*".toList <+: trimEnd n.text)
    (h : Comment.fromNode n l r = .ok c) (ht : n'.text = c.rendered i) (h' : Comment.fromNode n' l' r' = .ok c') :
    ∀ j, c'.rendered j = c.rendered j := by
  have hne : ("block_comment" : String) ≠ "line_comment" := by decide
  have hc : c.value = trimEnd n.text ∧ c.type = .block := by
    simp only [Comment.fromNode, hk, hne, if_true, if_false] at h
    cases h; exact ⟨rfl, rfl⟩
  have hc' : c'.value = trimEnd n'.text ∧ c'.type = .block := by
    simp only [Comment.fromNode, hk', hne, if_true, if_false] at h'
    cases h'; exact ⟨rfl, rfl⟩
  have htt : trimEnd (trimEnd n.text) = trimEnd n.text := by
    obtain ⟨_, _, _, h3⟩ := trimEnd_split n.text
    exact trimEnd_of_last h3
  intro j
  simp only [Comment.rendered, hc.2, hc'.2, hc'.1, ht, hc.1]
  congr 1
  cases hj : "/**".toList.isPrefixOf (trimEnd n.text) with
  | true => exact blockLines_javadoc_stable i hj
  | false => exact blockLines_plain_stable i (by rw [List.isPrefixOf_iff_prefix]; exact hs) hj htt

/-- Example: a JavaDoc comment with unaligned lines. -/
def exDoc : Node := exComment 1 false 0 "/** a\n  b\n\n   *c */"

example : ∃ c, Comment.fromNode exDoc [] [] = .ok c ∧ "/*".toList <+: trimEnd exDoc.text ∧
    c.rendered 2 = "/**\n   * a\n   * b\n   *\n   * *c\n   */".toList :=
  ⟨_, rfl, by rw [← List.isPrefixOf_iff_prefix]; decide, by decide⟩

/-! ## C24 -/

/-- **C24**: rendering a block comment keeps its visible characters in order: all of them for plain comments, all except
stars for JavaDoc comments. -/
theorem C24_block_comment_content (n : Node) (l r : List Node) (c : Comment) (hk : n.kind = "block_comment")
    (h : Comment.fromNode n l r = .ok c) (i : Nat) :
    (¬ "/**".toList <+: n.text → dense (c.rendered i) = dense n.text) ∧
    ("/**".toList <+: n.text → "*/".toList <:+ n.text → denseNoStar (c.rendered i) = denseNoStar n.text) := by
  have hne : ("block_comment" : String) ≠ "line_comment" := by decide
  have hc : c.value = trimEnd n.text ∧ c.type = .block := by
    simp only [Comment.fromNode, hk, hne, if_true, if_false] at h
    cases h; exact ⟨rfl, rfl⟩
  simp only [Comment.rendered, hc.2, hc.1]
  obtain ⟨ws, h1, h2, h3⟩ := trimEnd_split n.text
  refine ⟨fun hj => ?_, fun hj he => ?_⟩
  · have hj' : "/**".toList.isPrefixOf (trimEnd n.text) = false := by
      cases hp : "/**".toList.isPrefixOf (trimEnd n.text) with
      | false => rfl
      | true =>
        rw [List.isPrefixOf_iff_prefix] at hp
        obtain ⟨t, ht⟩ := hp
        exact absurd ⟨t ++ ws, by rw [← List.append_assoc, ht, ← h1]⟩ hj
    rw [blockLines_plain_dense i hj']
    exact filter_trimEnd dense_ws n.text
  · have hw : trimEnd n.text = n.text := by
      obtain ⟨u, hu⟩ := he
      refine trimEnd_of_last ?_
      rw [← hu]; simp; decide
    rw [hw]
    exact blockLines_javadoc_dense i (by rw [List.isPrefixOf_iff_prefix]; exact hj)
      (by rw [List.isSuffixOf_iff_suffix]; exact he)

example : "/**".toList <+: exDoc.text ∧ "*/".toList <:+ exDoc.text := by
  rw [← List.isPrefixOf_iff_prefix, ← List.isSuffixOf_iff_suffix]; decide

/-- For JavaDoc comments the stars themselves are not kept: here one is added. -/
theorem C24_javadoc_adds_star : ∃ (n : Node) (c : Comment), n.kind = "block_comment" ∧ Comment.fromNode n [] [] = .ok c ∧
    (n.text.filter (· == '*')).length < ((c.rendered 0).filter (· == '*')).length :=
  ⟨exComment 1 false 0 "/** a */", _, rfl, rfl, by decide⟩

/-! ## C25 -/

/-- **C25** (rows): what the flags of a collected comment mean in terms of rows of the comment and of its nearest named
siblings. -/
theorem C25_rows (o : Occ) :
    (o.comment.meta'.hasLeadingContent = true ↔ ∃ p, o.lefts.find? (·.named) = some p ∧ o.node.startRow = p.endRow) ∧
    (o.comment.meta'.hasEmptyLineAbove = true ↔ ∃ p, o.lefts.find? (·.named) = some p ∧ p.endRow + 1 < o.node.startRow) ∧
    (o.comment.meta'.hasTrailingContent = true ↔
      o.node.kind ≠ "line_comment" ∧ ∃ x, o.rights.find? (·.named) = some x ∧ o.node.endRow = x.startRow) ∧
    (o.comment.meta'.hasEmptyLineBelow = true ↔ ∃ x, o.rights.find? (·.named) = some x ∧ o.node.endRow + 1 < x.startRow) := by
  simp only [Occ.comment, CommentMetadata.of]
  refine ⟨?_, ?_, ?_, ?_⟩
  · cases List.find? (·.named) o.lefts <;> simp
  · cases List.find? (·.named) o.lefts <;> simp
  · by_cases hk : o.node.kind = "line_comment"
    · simp [hk]
    · simp only [beq_iff_eq, hk, if_false]
      cases List.find? (·.named) o.rights <;> simp [hk]
  · cases List.find? (·.named) o.rights
    · simp
    · simp; omega

/-- Where a comment is placed after the preceding text: on the same line after one space, after one blank line, or on the
next line. -/
def placement (i : Nat) (c : Comment) : Str :=
  if c.meta'.hasLeadingContent then [' ']
  else if c.meta'.hasEmptyLineAbove then '\n' :: '\n' :: spaces i
  else '\n' :: spaces i

/-- A space follows the comment (something follows on the same line which is no `{`..`}` body). -/
def spaceAfter (c : Comment) : Bool := c.meta'.hasTrailingContent && !c.meta'.isFollowedByBracketCompositeNode

/-- The text of comments printed after a node at indentation `i`. -/
def afterText (i : Nat) : List Comment → Str
  | [] => []
  | [c] => placement i c ++ c.rendered i ++ (if spaceAfter c then [' '] else [])
  | c :: cs => placement i c ++ c.rendered i ++ afterText i cs

/-- The comment is not empty, does not end with white space, and nothing follows a line comment on its line. -/
structure Comment.Proper (c : Comment) : Prop where
  ne : c.value ≠ []
  trimmed : trimEnd c.value = c.value
  line : c.type = .line → c.meta'.hasTrailingContent = false

/-- Consecutive comments agree about being on the same line. -/
def RowChain : List Comment → Prop
  | [] => True
  | [_] => True
  | c :: d :: cs => (d.meta'.hasLeadingContent = true → c.type = .block) ∧
    (spaceAfter c = true → d.meta'.hasLeadingContent = true) ∧ RowChain (d :: cs)

theorem rendered_last {c : Comment} (h : c.Proper) (i : Nat) : c.rendered i ≠ [] ∧ endsWithSpace (c.rendered i) = false := by
  have key : ∀ (p l : Str), l ≠ [] → (∀ x ∈ l.getLast?, isWs x = false) → p ++ l ≠ [] ∧ endsWithSpace (p ++ l) = false := by
    intro p l hl hw
    refine ⟨by simp [hl], ?_⟩
    simp only [endsWithSpace, List.getLast?_append]
    cases hh : l.getLast? with
    | none => rw [List.getLast?_eq_none_iff] at hh; exact absurd hh hl
    | some d =>
      have := hw d hh
      have hd : d ≠ ' ' := by rintro rfl; revert this; decide
      simpa using hd
  unfold Comment.rendered
  cases c.type with
  | line =>
    obtain ⟨_, _, _, h3⟩ := trimEnd_split c.value
    rw [h.trimmed] at h3
    exact key [] c.value h.ne h3
  | block =>
    obtain ⟨init, l, e, hl, hw⟩ := blockLines_last h.ne h.trimmed
    obtain ⟨p, hp⟩ := joinLines_snoc i init l
    simp only [e, hp]
    exact key p l hl hw

/-- Printing a comment. -/
theorem pr_comment_out (w : Nat) {c : Comment} (h : c.Proper) (i : Nat) (fl : Bool) (rest : List Chunk) (st : PSt) :
    (pr w c.build i fl rest st).out = st.flush.out ++ c.rendered i ∧
    (pr w c.build i fl rest st).pend = if c.type = .line then some i else none := by
  rw [pr_comment]
  unfold commentOps Comment.rendered
  cases hc : c.type with
  | line =>
    have hv : c.value ≠ [' '] := by
      have := (rendered_last h 0).2
      unfold Comment.rendered at this
      rw [hc] at this
      exact ne_space_of_not_ends this
    simp [Op.run, PSt.putText, hv]
  | block =>
    obtain ⟨col, e⟩ := runOps_linesOps i (blockLines c.value) st (blockLines_ne_nil _) (blockLines_ne _)
    simp [e]

theorem endsWithSpace_append {a b : Str} (hb : b ≠ []) : endsWithSpace (a ++ b) = endsWithSpace b := by
  simp only [endsWithSpace, List.getLast?_append]
  cases h : b.getLast? with
  | none => rw [List.getLast?_eq_none_iff] at h; exact absurd h hb
  | some c => simp

theorem prs_postDocs (w i : Nat) (fl : Bool) (cs : List Comment) : ∀ (rest : List Chunk) (st : PSt) (o : Str),
    (∀ c ∈ cs, c.Proper) → RowChain cs → cs ≠ [] →
    (st.out = o ∨ st.out = o ++ [' '] ∧ ∀ c ∈ cs.head?, c.meta'.hasLeadingContent = true) → endsWithSpace o = false →
    (∀ c ∈ cs.head?, c.meta'.hasLeadingContent = true → st.pend = none) →
    (prs w (postDocs cs) i fl rest st).out = o ++ afterText i cs ∧
    (prs w (postDocs cs) i fl rest st).pend = if (cs.getLast?.map (·.type)) = some .line then some i else none := by
  induction cs with
  | nil => intro _ _ _ _ _ h; exact absurd rfl h
  | cons c cs ih =>
    intro rest st o hp hr _ ho hs hl
    have hc := hp c (by simp)
    -- the separator
    have hlead : ∀ rest', (pr w (postLead c) i fl rest' st).flush.out = o ++ placement i c := by
      intro rest'
      unfold postLead placement
      by_cases h1 : c.meta'.hasLeadingContent = true
      · have hpn := hl c (by simp) h1
        simp only [h1, if_true, pr, txt, PSt.flush_of_none hpn]
        rcases ho with ho | ⟨ho, _⟩
        · simp [PSt.putText, ho, hs, PSt.flush, hpn]
        · simp [PSt.putText, ho, endsWithSpace, PSt.flush, hpn]
      · have ho' : st.out = o := by
          rcases ho with ho | ⟨_, h⟩
          · exact ho
          · exact absurd (h c (by simp)) h1
        simp only [h1]
        by_cases h2 : c.meta'.hasEmptyLineAbove = true
        · simp [h2, emptyNewLine, pr, prs, PSt.flush, PSt.bareNewline, ho']
        · simp [h2, nl, pr, PSt.flush, ho']
    simp only [postDocs, prs]
    generalize hst1 : pr w (postLead c) i fl _ st = st1
    have h1 : st1.flush.out = o ++ placement i c := by rw [← hst1]; exact hlead _
    generalize hst2 : pr w c.build i fl _ st1 = st2
    have h2 : st2.out = o ++ placement i c ++ c.rendered i ∧ st2.pend = if c.type = .line then some i else none := by
      rw [← hst2, ← h1]; exact pr_comment_out w hc i fl _ st1
    have hlast := rendered_last hc i
    have hs2 : endsWithSpace st2.out = false := by rw [h2.1, endsWithSpace_append hlast.1]; exact hlast.2
    -- the space after the comment
    have happ : ∀ (a b : List Doc) (st : PSt), ∃ rest', prs w (a ++ b) i fl rest st = prs w b i fl rest (prs w a i fl rest' st) := by
      intro a b
      induction a with
      | nil => intro st; exact ⟨rest, by simp [prs]⟩
      | cons d a iha =>
        intro st
        refine ⟨b.map (fun d => ({ doc := d, indent := i, flat := fl } : Chunk)) ++ rest, ?_⟩
        have gen : ∀ (a : List Doc) (st : PSt), prs w (a ++ b) i fl rest st =
            prs w b i fl rest (prs w a i fl (b.map (fun d => ({ doc := d, indent := i, flat := fl } : Chunk)) ++ rest) st) := by
          intro a
          induction a with
          | nil => intro st; simp [prs]
          | cons d a iha => intro st; simp only [List.cons_append, prs, iha, List.map_append, List.append_assoc]
        exact gen (d :: a) st
    obtain ⟨rest', e⟩ := happ (postTrail c) (postDocs cs) st2
    rw [e]
    have htr : (prs w (postTrail c) i fl rest' st2).out = st2.out ++ (if spaceAfter c then [' '] else []) ∧
        (prs w (postTrail c) i fl rest' st2).pend = st2.pend := by
      unfold postTrail spaceAfter
      by_cases ht : (c.meta'.hasTrailingContent && !c.meta'.isFollowedByBracketCompositeNode) = true
      · have hb : c.type = .block := by
          cases hct : c.type with
          | block => rfl
          | line => rw [hc.line hct] at ht; simp at ht
        have hpn : st2.pend = none := by rw [h2.2, hb]; simp
        simp [ht, prs, pr, txt, PSt.flush_of_none hpn, PSt.putText, hs2, hpn]
      · simp [ht, prs]
    cases cs with
    | nil =>
      simp only [postDocs, prs, htr.1, htr.2, h2.1, h2.2, afterText]
      simp
    | cons d ds =>
      have hr' : (d.meta'.hasLeadingContent = true → c.type = .block) ∧
        (spaceAfter c = true → d.meta'.hasLeadingContent = true) ∧ RowChain (d :: ds) := hr
      have := ih rest (prs w (postTrail c) i fl rest' st2) st2.out (fun x hx => hp x (by simp [hx])) hr'.2.2 (by simp)
        (by
          rw [htr.1]
          by_cases hsa : spaceAfter c = true
          · right; exact ⟨by simp [hsa], by simpa using hr'.2.1 hsa⟩
          · left; simp [hsa])
        hs2
        (by
          intro x hx hx'
          simp only [List.head?_cons, Option.mem_def, Option.some.injEq] at hx
          subst hx
          rw [htr.2, h2.2, hr'.1 hx']; simp)
      rw [this.1, this.2, h2.1]
      simp [afterText]

/-- **C25** (layout): comments printed after a node, in any printer state, flat or broken, at any indentation `i`: each
comment is placed after the preceding text on the same line after exactly one space, after exactly one blank line, or on
the next line, as its flags (see `C25_rows`) say. -/
theorem C25_after_comments_layout (w i : Nat) (fl : Bool) (cs : List Comment) (rest : List Chunk) (st : PSt)
    (hp : ∀ c ∈ cs, c.Proper) (hr : RowChain cs) (hne : cs ≠ []) (hs : endsWithSpace st.out = false)
    (hl : ∀ c ∈ cs.head?, c.meta'.hasLeadingContent = true → st.pend = none) :
    ∃ st' : PSt, st'.out = st.out ++ afterText i cs ∧
      st'.pend = (if (cs.getLast?.map (·.type)) = some .line then some i else none) ∧
      ∀ fin, Prints w ({ doc := .concat (postDocs cs), indent := i, flat := fl } :: rest) st fin ↔ Prints w rest st' fin := by
  obtain ⟨h1, h2⟩ := prs_postDocs w i fl cs rest st st.out hp hr hne (.inl rfl) hs hl
  exact ⟨_, h1, h2, fun fin => by simp [prints_iff, prChunks, pr]⟩

example : (∀ c ∈ [exC 1 "/* a */" .block true false true, exC 2 "// b" .line true false false,
      exC 3 "// c" .line false true false], c.Proper) ∧
    RowChain [exC 1 "/* a */" .block true false true, exC 2 "// b" .line true false false,
      exC 3 "// c" .line false true false] ∧
    afterText 2 [exC 1 "/* a */" .block true false true, exC 2 "// b" .line true false false,
      exC 3 "// c" .line false true false] = " /* a */ // b\n\n  // c".toList := by
  refine ⟨?_, ?_, by decide⟩
  · intro c hc
    simp only [List.mem_cons, List.not_mem_nil, or_false] at hc
    rcases hc with rfl | rfl | rfl <;> exact ⟨by decide, by decide, by decide⟩
  · simp [RowChain, exC, spaceAfter]

/-- Collected comments are proper (for comment nodes that are not blank), and neighbours agree about rows. -/
theorem C25_collected_proper (o : Occ) (hne : trimEnd o.node.text ≠ []) : o.comment.Proper := by
  refine ⟨hne, ?_, ?_⟩
  · obtain ⟨_, _, _, h3⟩ := trimEnd_split o.node.text
    exact trimEnd_of_last h3
  · intro h
    have : o.node.kind = "line_comment" := by
      simp only [Occ.comment] at h
      split at h
      · rename_i hk; simpa using hk
      · cases h
    simp [Occ.comment, CommentMetadata.of, this]

end Afmt
