import Verif.FormatLemmas
import Verif.PropsPrinter
import Verif.PropsCollect

/-!
# End-to-end properties of formatting one tree: C01, C02, C08 - C10, C17, C18

`formatTree checks depth cfg root` is `format_one` on the tree the parser returned; `checks`: overflow checks (debug
build), `depth`: how deep the stack allows to recurse.  All theorems hold for every tree, every build and every stack.
-/

namespace Afmt

/-! ### Example tree: `class A { /* x */ } // y` -/

/-- Example: node with a field name. -/
def exField (f : String) (n : Node) : Node := { n with field := some f }

/-- `// y ⏎ class A {⏎ /* x */⏎ }`. -/
def exClass : Node := exNode 1 "parser_output" 0 3 "" [
  exComment 2 true 0 "// y ",
  exNode 3 "class_declaration" 1 3 "" [
    exTok 4 "class" 1, exField "name" (exNode 5 "identifier" 1 1 "A" []),
    exField "body" (exNode 6 "class_body" 1 3 "" [exTok 7 "{" 1, exComment 8 false 2 "/* x */", exTok 9 "}" 3])]]

example : formatTree true 9 ⟨80, 2⟩ exClass = .ok "// y\nclass A {\n  /* x */\n}\n".toList := by decide
example : formatTree true 9 ⟨3, 4⟩ exClass = .ok "// y\nclass A {\n    /* x */\n}\n".toList := by decide
example : exClass.Closed := by
  simp [exClass, exNode, exComment, exTok, exField, Node.Closed, kidsClosed, Node.associable]

/-! ## C01, C02 -/

/-- Two runs that differ only in the configuration: they fail alike, and if they succeed they print the same pieces of
code and the same comments in the same order with nothing but blanks in between. -/
theorem config_only_whitespace (checks : Bool) (depth : Nat) (root : Node) (cfg cfg' : Config)
    (hk : cfg.indentSize ≠ 0) (hk' : cfg'.indentSize ≠ 0) :
    (∀ e, formatTree checks depth cfg root = .error e ↔ formatTree checks depth cfg' root = .error e) ∧
    ∀ out out', formatTree checks depth cfg root = .ok out → formatTree checks depth cfg' root = .ok out' →
      ink out = ink out' ∧ ∃ ss ss', out = renderSegs ss ∧ out' = renderSegs ss' ∧ itemsOf ss = itemsOf ss' ∧
        (∀ b, Seg.blank b ∈ ss → ink b = []) ∧ (∀ b, Seg.blank b ∈ ss' → ink b = []) := by
  refine ⟨fun e => ⟨formatTree_error hk hk', formatTree_error hk' hk⟩, fun out out' h h' => ?_⟩
  obtain ⟨cm, p, is, log, ss, hcm, hp, hi, _, e1, e2, e3⟩ := formatTree_segments h
  obtain ⟨cm', p', is', log', ss', hcm', hp', hi', _, e1', e2', e3'⟩ := formatTree_segments h'
  rw [hcm] at hcm'; cases hcm'
  rw [hp] at hp'; cases hp'
  rw [hi] at hi'; cases hi'
  have he : itemsOf ss = itemsOf ss' := by rw [e2, e2']
  refine ⟨?_, ss, ss', e1, e1', he, e3.blank, e3'.blank⟩
  rw [e1, e1', ink_renderSegs ss e3.blank, ink_renderSegs ss' e3'.blank, he]

/-- **C01**: under any two `max_width` settings the same tree fails with the same panic or succeeds with the same visible
characters; more precisely the same code pieces and comments in the same order, with only blanks in between. -/
theorem C01_max_width_only_whitespace (checks : Bool) (depth : Nat) (root : Node) (k w w' : Nat) :
    (∀ e, formatTree checks depth ⟨w, k⟩ root = .error e ↔ formatTree checks depth ⟨w', k⟩ root = .error e) ∧
    ∀ out out', formatTree checks depth ⟨w, k⟩ root = .ok out → formatTree checks depth ⟨w', k⟩ root = .ok out' →
      ink out = ink out' ∧ ∃ ss ss', out = renderSegs ss ∧ out' = renderSegs ss' ∧ itemsOf ss = itemsOf ss' ∧
        (∀ b, Seg.blank b ∈ ss → ink b = []) ∧ (∀ b, Seg.blank b ∈ ss' → ink b = []) := by
  by_cases hk : k = 0
  · subst hk
    have key : ∀ w, (∀ out, formatTree checks depth ⟨w, 0⟩ root ≠ .ok out) := by
      intro w out h
      obtain ⟨_, cm, hcm, h⟩ := formatTree_ok.1 h
      obtain ⟨_, _, _, _, hk, _⟩ := (enrich_ok (commentMap_tidy hcm)).1 h
      exact hk rfl
    refine ⟨fun e => ?_, fun out _ h => absurd h (key w out)⟩
    have hh : formatTree checks depth ⟨w, 0⟩ root = formatTree checks depth ⟨w', 0⟩ root := by
      simp only [formatTree, enrichAndPrint]
      rfl
    rw [hh]
  · exact config_only_whitespace checks depth root ⟨w, k⟩ ⟨w', k⟩ hk hk

/-- **C02**: the same for two positive indent sizes. -/
theorem C02_indent_size_only_whitespace (checks : Bool) (depth : Nat) (root : Node) (w k k' : Nat) (hk : 0 < k) (hk' : 0 < k') :
    (∀ e, formatTree checks depth ⟨w, k⟩ root = .error e ↔ formatTree checks depth ⟨w, k'⟩ root = .error e) ∧
    ∀ out out', formatTree checks depth ⟨w, k⟩ root = .ok out → formatTree checks depth ⟨w, k'⟩ root = .ok out' →
      ink out = ink out' ∧ ∃ ss ss', out = renderSegs ss ∧ out' = renderSegs ss' ∧ itemsOf ss = itemsOf ss' ∧
        (∀ b, Seg.blank b ∈ ss → ink b = []) ∧ (∀ b, Seg.blank b ∈ ss' → ink b = []) :=
  config_only_whitespace checks depth root ⟨w, k⟩ ⟨w, k'⟩ (Nat.pos_iff_ne_zero.1 hk) (Nat.pos_iff_ne_zero.1 hk')

/-- **C02**: with `indent_size` 0 nothing can be formatted. -/
theorem C02_indent_zero_fails (checks : Bool) (depth : Nat) (root : Node) (w : Nat) :
    ∃ e, formatTree checks depth ⟨w, 0⟩ root = .error e := by
  cases h : formatTree checks depth ⟨w, 0⟩ root with
  | error e => exact ⟨e, rfl⟩
  | ok out =>
    obtain ⟨_, cm, hcm, h⟩ := formatTree_ok.1 h
    obtain ⟨_, _, _, _, hk, _⟩ := (enrich_ok (commentMap_tidy hcm)).1 h
    exact absurd rfl hk

example : formatTree true 9 ⟨80, 0⟩ exClass = .error .indentZero := by decide

/-! ## C03, C08 for formatted files -/

/-- **C08** for files: every line the printer starts is indented by a multiple of `indent_size`. -/
theorem C08_file_indentation_multiple (checks : Bool) (depth : Nat) (cfg : Config) (root : Node) (out : Str)
    (h : formatTree checks depth cfg root = .ok out) :
    ∃ ps : List Piece, out = renderPieces ps ∧ ∀ i, Piece.line i ∈ ps → cfg.indentSize ∣ i := by
  obtain ⟨cm, p, is, log, d, _, _, _, _, _, _, h2, h3⟩ := formatTree_content h
  exact C08_indentation_multiple cfg.maxWidth cfg.indentSize d out h2.1 (by rw [prettyPrint_eq, h3])

/-! ## C09 -/

/-- **C09**: in a formatted file the text of every line comment of the source is followed by spaces only and a newline. -/
theorem C09_line_comment_never_swallows_code (checks : Bool) (depth : Nat) (cfg : Config) (root : Node) (out : Str)
    (hc : root.Closed) (hn : root.named = true) (he : root.extra = false)
    (h : formatTree checks depth cfg root = .ok out) :
    ∃ ss, out = renderSegs ss ∧
      (∀ a c i b, ss = a ++ Seg.comment c i :: b → c.type = .line → EndsLine (renderSegs b)) ∧
      ∀ o ∈ root.extras, o.node.kind = "line_comment" →
        (∃ i, Seg.comment o.comment i ∈ ss) ∧
        ∃ before k after, out = before ++ trimEnd o.node.text ++ spaces k ++ '\n' :: after := by
  obtain ⟨cm, p, is, log, ss, hcm, _, hi, hm, e1, e2, e3⟩ := formatTree_segments h
  refine ⟨ss, e1, e3.line, fun o ho hk => ?_⟩
  have hall := (C14_every_comment_attached_once root hc hn he).2 cm hcm
  have hmem : o.comment ∈ commentsOf is :=
    (items_log cm p is log hi).mem (hm _ (hall.mem_iff.2 (List.mem_map.2 ⟨o, ho, rfl⟩)))
  rw [← e2] at hmem
  have : ∃ i, Seg.comment o.comment i ∈ ss := by
    simp only [commentsOf, itemsOf, List.mem_filterMap] at hmem
    obtain ⟨it, ⟨s, hs, h1⟩, h2⟩ := hmem
    cases s with
    | blank b => simp [Seg.item] at h1
    | code b => simp only [Seg.item, Option.some.injEq] at h1; subst h1; simp at h2
    | comment c i =>
      simp only [Seg.item, Option.some.injEq] at h1
      subst h1
      simp only [Option.some.injEq] at h2
      subst h2
      exact ⟨i, hs⟩
  obtain ⟨i, hs⟩ := this
  obtain ⟨a, b, hab⟩ := List.append_of_mem hs
  refine ⟨⟨i, hs⟩, ?_⟩
  have ht : o.comment.type = .line := by simp [Occ.comment, hk]
  obtain ⟨k, t', hl⟩ := e3.line a _ i b hab ht
  refine ⟨renderSegs a, k, t', ?_⟩
  rw [e1, hab, renderSegs_append, renderSegs_cons, hl]
  simp only [Seg.render, Comment.rendered, ht]
  simp [Occ.comment]

/-! ## C10 -/

/-- **C10**: every successful result ends with a newline (so it is not empty). -/
theorem C10_ends_with_newline (checks : Bool) (depth : Nat) (cfg : Config) (root : Node) (out : Str)
    (h : formatTree checks depth cfg root = .ok out) : ∃ body, out = body ++ ['\n'] := by
  obtain ⟨cm, p, is, log, d, hcm, hp, hi, hm, hb, _, _, h3⟩ := formatTree_content h
  obtain ⟨_, cm', hcm', h⟩ := formatTree_ok.1 h
  rw [hcm] at hcm'; cases hcm'
  obtain ⟨ms, rfl⟩ := new_root hp
  simp only [Prog.build] at hb
  cases hg : getBucket cm root.id with
  | error e => rw [hg] at hb; cases hb
  | ok b =>
    rw [hg] at hb
    by_cases hd : b.dangling = []
    · simp only [hd, ne_eq, not_true_eq_false, if_false, Prog.builds] at hb
      split at hb
      · rename_i ds l hx
        split at hx
        · cases hx
        · rename_i d' l' _
          cases hx
          cases hb
          refine ⟨(pr cfg.maxWidth d' 0 false [⟨nl, 0, false⟩] PSt.init).out, ?_⟩
          rw [h3]
          simp [layout, pr, prs, nl, PSt.flush, spaces]
      · cases hb
    · have hg' : cm.get? root.id = some b := by
        unfold getBucket at hg
        split at hg
        · cases hg; assumption
        · cases hg
      exact absurd h (root_dangling_fails (commentMap_tidy hcm) hg' hd out)

/-! ## C17 -/

theorem nodup_of_map {α β : Type} {l : List α} (f : α → β) (h : (l.map f).Nodup) : l.Nodup := by
  induction l with
  | nil => exact List.nodup_nil
  | cons a l ih =>
    simp only [List.map_cons, List.nodup_cons, List.mem_map, not_exists, not_and] at h ⊢
    exact ⟨fun ha => h.1 a ha rfl, ih h.2⟩

/-- **C17**: if formatting succeeds, the output consists of code pieces, comments and blanks such that every comment of
the source is among the comments, rendered as a whole (`Comment.rendered`: its lines, joined by newline and
indentation). -/
theorem C17_no_comment_lost (checks : Bool) (depth : Nat) (cfg : Config) (root : Node) (out : Str)
    (hc : root.Closed) (hn : root.named = true) (he : root.extra = false)
    (h : formatTree checks depth cfg root = .ok out) :
    ∃ ss, out = renderSegs ss ∧ (∀ b, Seg.blank b ∈ ss → ink b = []) ∧
      (∀ o ∈ root.extras, ∃ i, Seg.comment o.comment i ∈ ss) ∧
      ((root.extras.map (fun o => o.node.id)).Nodup →
        ∃ extra, (commentsOf (itemsOf ss)).Perm (root.extras.map Occ.comment ++ extra)) := by
  obtain ⟨cm, p, is, log, ss, hcm, _, hi, hm, e1, e2, e3⟩ := formatTree_segments h
  have hall := (C14_every_comment_attached_once root hc hn he).2 cm hcm
  have hmem : ∀ c ∈ root.extras.map Occ.comment, c ∈ commentsOf (itemsOf ss) := by
    intro c hc
    rw [e2]
    exact (items_log cm p is log hi).mem (hm c (hall.mem_iff.2 hc))
  refine ⟨ss, e1, e3.blank, fun o ho => ?_, fun hnd => ?_⟩
  · have := hmem o.comment (List.mem_map.2 ⟨o, ho, rfl⟩)
    simp only [commentsOf, itemsOf, List.mem_filterMap] at this
    obtain ⟨it, ⟨s, hs, h1⟩, h2⟩ := this
    cases s with
    | blank b => simp [Seg.item] at h1
    | code b => simp only [Seg.item, Option.some.injEq] at h1; subst h1; simp at h2
    | comment c i =>
      simp only [Seg.item, Option.some.injEq] at h1
      subst h1
      simp only [Option.some.injEq] at h2
      subst h2
      exact ⟨i, hs⟩
  · refine within_of_nodup ?_ hmem
    have : (root.extras.map (fun o => o.node.id)) = (root.extras.map Occ.comment).map (·.id) := by
      simp [Occ.comment]
    rw [this] at hnd
    exact nodup_of_map _ hnd

/-- **C17** (in plain text): the rendering of every comment of the source occurs in the output as a contiguous piece of
text: a line comment verbatim up to trailing white space, a block comment line by line with only indentation added. -/
theorem C17_comment_text_in_output (checks : Bool) (depth : Nat) (cfg : Config) (root : Node) (out : Str)
    (hc : root.Closed) (hn : root.named = true) (he : root.extra = false)
    (h : formatTree checks depth cfg root = .ok out) (o : Occ) (ho : o ∈ root.extras) :
    ∃ before after i, out = before ++
      (if o.node.kind = "line_comment" then trimEnd o.node.text else joinLines i (blockLines (trimEnd o.node.text))) ++
      after := by
  obtain ⟨ss, e1, _, h1, _⟩ := C17_no_comment_lost checks depth cfg root out hc hn he h
  obtain ⟨i, hs⟩ := h1 o ho
  obtain ⟨a, b, rfl⟩ := List.append_of_mem hs
  refine ⟨renderSegs a, renderSegs b, i, ?_⟩
  rw [e1]
  simp only [renderSegs_append, renderSegs_cons, Seg.render, Comment.rendered, Occ.comment, beq_iff_eq,
    List.append_assoc, List.append_cancel_left_eq]
  by_cases hk : o.node.kind = "line_comment" <;> simp [hk]

example : exClass.extras.map (fun o => (o.node.id, String.ofList o.node.text)) = [(2, "// y "), (8, "/* x */")] := by decide

/-! ## C18 -/

theorem extras_of_comment_only (pid : Nat) (kids : List Node) : ∀ (lefts : List Node),
    (∀ c ∈ kids, c.extra = true) → kids ≠ [] → ∃ c ls rs, Occ.mk pid c ls rs ∈ kidsExtras pid lefts kids ∧ ls = lefts ∧
      kids = c :: rs := by
  intro lefts hk hne
  cases kids with
  | nil => exact absurd rfl hne
  | cons c r => exact ⟨c, lefts, r, by simp [kidsExtras, hk c], rfl, rfl⟩

/-- **C18 is false**: *every* file that consists only of comments fails, with the complaint that a comment would be
lost (although the comments are in the document that is printed). -/
theorem C18_comment_only_file_fails (checks : Bool) (depth : Nat) (cfg : Config) (root : Node)
    (hc : root.Closed) (hk : root.kind = "parser_output") (hn : root.named = true) (he : root.extra = false)
    (herr : root.hasError = false) (hcom : ∀ o ∈ root.extras, o.node.isCommentKind = true)
    (hall : ∀ c ∈ root.children, c.extra = true) (hne : root.children ≠ [])
    (hi : cfg.indentSize ≠ 0) (hd : 0 < depth) :
    formatTree checks depth cfg root = .error .erasedComment := by
  obtain ⟨cm, hcm⟩ := (C14_every_comment_attached_once root hc hn he).1.2 hcom
  -- the root bucket has dangling comments
  obtain ⟨c, ls, rs, ho, hls, hrs⟩ := extras_of_comment_only root.id root.children [] hall hne
  subst hls
  have ho' : Occ.mk root.id c [] rs ∈ root.extras := by
    obtain ⟨id, kind, named, extra, err, field, sr, er, sb, eb, text, children⟩ := root
    simpa [Node.extras] using ho
  have hown : (Occ.mk root.id c [] rs).owner = .dangling root.id := by
    have hx : ∀ s ∈ rs, s.extra = true := fun s hs => hall s (by rw [hrs]; simp [hs])
    have : rs.find? (·.associable) = none := by
      rw [List.find?_eq_none]
      intro s hs
      simp [Node.associable, hx s hs]
    simp [Occ.owner, farOwner, this]
  have hslot := C14_owner root hc hn he cm hcm (.dangling root.id)
  have hmem : (Occ.mk root.id c [] rs).comment ∈ cm.slot (.dangling root.id) := by
    rw [hslot.mem_iff, List.mem_map]
    exact ⟨_, List.mem_filter.2 ⟨ho', by simp [hown]⟩, rfl⟩
  obtain ⟨b, hb⟩ : ∃ b, cm.get? root.id = some b := by
    cases hg : cm.get? root.id with
    | some b => exact ⟨b, rfl⟩
    | none => simp [CMap.slot, hg] at hmem
  have hdang : b.dangling ≠ [] := by
    simp only [CMap.slot, hb, Option.map_some, Option.getD_some] at hmem
    exact List.ne_nil_of_mem hmem
  have hgb : getBucket cm root.id = .ok b := by simp [getBucket, hb]
  have hvec : (Loc.ofRoot root).childrenVec = [] := by
    have hgo : ∀ (p : Loc) (kids lefts : List Node), (∀ c ∈ kids, c.extra = true) →
        ∀ l ∈ Loc.childrenGo p lefts kids, l.extra = true := by
      intro p kids
      induction kids with
      | nil => intro lefts _ l hl; simp [Loc.childrenGo] at hl
      | cons x xs ih =>
        intro lefts hx l hl
        simp only [Loc.childrenGo, List.mem_cons] at hl
        rcases hl with rfl | hl
        · exact hx x (by simp)
        · exact ih _ (fun y hy => hx y (by simp [hy])) l hl
    have := hgo (Loc.ofRoot root) root.children [] hall
    simp only [Loc.childrenVec, Loc.namedChildren, Loc.children, List.filter_eq_nil_iff, List.mem_filter]
    intro l hl
    simp [this l hl.1]
  obtain ⟨d, rfl⟩ : ∃ d, depth = d + 1 := ⟨depth - 1, by omega⟩
  have hnew : Prog.new { cm, checks } (d + 1) .root (Loc.ofRoot root) =
      .ok (.ifDangling root.id (.rootDangling root.id) (.concat [Prog.intersperseBody [], .nl])) := by
    have ha : assertCheck (Loc.ofRoot root) "parser_output" = .ok () := by
      simp [assertCheck, Loc.kind, Loc.ofRoot, hk]
    simp only [Prog.new, Prog.step, Prog.New.root, hvec, mapR, ha, bind, Except.bind]
    rfl
  have hrun : enrichAndPrint checks (d + 1) cfg root cm = .error .erasedComment := by
    simp only [enrichAndPrint, hnew, hi, if_false, Prog.build, hgb, hdang, ne_eq, not_false_eq_true, if_true,
      prettyPrint_eq]
    rw [if_neg]
    rw [noMissing_iff]
    intro h
    have := h _ (getBucket_mem hgb _ (by
      simp only [CMap.slot, hb, Option.map_some, Option.getD_some] at hmem
      simp only [Bucket.all, List.mem_append]
      exact .inr hmem))
    simp at this
  simp [formatTree, checkParsed, herr, hcm, hrun]

/-- `// only a comment`. -/
def exOnlyComment : Node := exNode 1 "parser_output" 0 0 "" [exComment 2 true 0 "// only a comment"]

/-- A comment-only file that fails: the hypotheses of `C18_comment_only_file_fails` can be met. -/
example : formatTree true 100 ⟨80, 2⟩ exOnlyComment = .error .erasedComment :=
  C18_comment_only_file_fails true 100 ⟨80, 2⟩ exOnlyComment
    (by simp [exOnlyComment, exNode, exComment, Node.Closed, kidsClosed]) rfl rfl rfl (by decide) (by decide) (by decide)
    (by decide) (by decide) (by decide)

end Afmt
