import Verif.Ends.Done
import Verif.Ends.Calm
import Verif.PropsSettled
import Verif.PropsTrail
import Verif.PropsBlanks

/-!
# C55 and C58 for trees with comments between members

Specification: `tidyEnds` (Trail/Mach.lean) and `blanksOnlyIndent` (PropsBlanks.lean) as for trees without comments;
`settled` (Settled.lean) says that the comments are between members, `primsBy` (Ends/Mend.lean) that the printed words and
the printed lines of comments satisfy a condition, `calls` (Ends/Done.lean) that no comment comes after a lone explicit
constructor call.
-/

namespace Afmt.Gram
open Trail (pair tidyEnds_eq ends_append Gate admitted lead)

/-- **C55** with comments: no line of the output ends with white space, whatever the line width, if the comments are
between members, provided that the printed words of the tree do not contain such lines themselves, that comments have no
empty lines, that `for` statements have updates, and that no comment comes after an explicit constructor call that is alone
in its body.  Missing: comments in other places, see `C55_block_comment_trails`; without the other conditions the claim is
false, see `C55_comment_line_trails`, `C55_for_header_trails` and `C55_call_comment_trails`. -/
theorem C55_no_trailing_white_space_with_comments_partial (checks : Bool) (depth : Nat) (cfg : Config) (root : Node) (out : Str)
    (hcl : root.Closed) (hi : root.ids.Nodup) (hf : root.field = none) (hc : conforms root = true) (hs : settled root = true)
    (ht : primsBy tightText (fun l => !l.isEmpty) "parser_output" none root.children = true) (hu : updates root = true)
    (hca : calls root = true) (h : formatTree checks depth cfg root = .ok out) : tidyEnds out = true := by
  by_cases hne : root.children = []
  · have hx := Ends.bare_plain (conforms_root hc).2.2.1 hne
    exact C55_no_trailing_white_space_partial checks depth cfg root out hcl hi hf hc hx (by rw [hne]; rfl) hu h
  · have e1 : @admitted Gate.loose = tightText := by funext s; simp [admitted, Gate.ok, Gate.on]
    have e2 : (fun l : Str => !l.isEmpty && @Gate.ok Gate.loose l) = (fun l => !l.isEmpty) := by funext l; simp [Gate.ok]
    have hp : @Ends.prims Gate.loose "parser_output" none root.children = true := by
      unfold Ends.prims; rw [e1, e2]; exact ht
    obtain ⟨body, e⟩ := C10_ends_with_newline checks depth cfg root out h
    rw [tidyEnds_eq, @Ends.format_inner Gate.loose _ _ _ _ _ hcl hi hf hc hs hne hp hu hca h, e, ends_append (by simp)]
    rfl

/-- **C58** with comments: two blanks in a row occur only in the indentation of a line, whatever the line width, if the
comments are between members, provided that neither the printed words of the tree nor the printed lines of the comments have
two blanks in a row themselves.  Missing: as in C55; see also `C58_comment_doubles_blank`. -/
theorem C58_blanks_only_indent_with_comments_partial (checks : Bool) (depth : Nat) (cfg : Config) (root : Node) (out : Str)
    (hcl : root.Closed) (hi : root.ids.Nodup) (hf : root.field = none) (hc : conforms root = true) (hs : settled root = true)
    (ht : primsBy calmText (fun l => !l.isEmpty && !pair l) "parser_output" none root.children = true)
    (hu : updates root = true) (hca : calls root = true) (h : formatTree checks depth cfg root = .ok out) :
    blanksOnlyIndent out := by
  by_cases hne : root.children = []
  · have hx := Ends.bare_plain (conforms_root hc).2.2.1 hne
    exact C58_blanks_only_indent_partial checks depth cfg root out hcl hi hf hc hx (by rw [hne]; rfl) hu h
  · have e1 : @admitted Gate.strict = calmText := by
      funext s
      show (tightText s && (!pair s && (!true || !lead s))) = (tightText s && !(s.head? == some ' ') && !pair s)
      unfold lead
      cases tightText s <;> cases pair s <;> cases (s.head? == some ' ') <;> rfl
    have hp : @Ends.prims Gate.strict "parser_output" none root.children = true := by
      unfold Ends.prims; rw [e1]; exact ht
    obtain ⟨ro, cm, k, p, d, l, hro, hb, hr, rfl⟩ := @Ends.format_run Gate.strict _ _ _ _ _ hcl hi hf hc hs hne hp hu hca h
    exact (calm_spec _).1 (Ends.layout_calm hro hb _ hr)

/-! ### Examples -/

example (w : Nat) (out : Str) (h : formatTree true 60 ⟨w, 2⟩ exNote = .ok out) : tidyEnds out = true := by
  obtain ⟨h1, h2, h3, h4, h5, _, _⟩ := exNote_ok
  exact C55_no_trailing_white_space_with_comments_partial _ _ _ _ _ h1 h2 h3 h4 h5 (by decide +kernel) (by decide) (by decide) h

/-- The example of C52 with another comment of several lines. -/
def exRuled (block : String) : Node := exNotes 1 2 6 8 9 10 13 15 "class A {...}" block

theorem exRuled_ok (b : String) (hb : b = "/* a\n     * b\n */" ∨ b = "/* a\n\n */" ∨ b = "/** a\n\n     b\n */") :
    (exRuled b).Closed ∧ (exRuled b).ids.Nodup ∧ (exRuled b).field = none ∧
    conforms (exRuled b) = true ∧ settled (exRuled b) = true ∧ updates (exRuled b) = true ∧ calls (exRuled b) = true := by
  rcases hb with rfl | rfl | rfl <;>
    exact ⟨closedB_iff _ (by decide), by decide, rfl, by decide, by decide, by decide, by decide⟩

example (w : Nat) (out : Str) (h : formatTree true 60 ⟨w, 2⟩ (exRuled "/* a\n     * b\n */") = .ok out) : blanksOnlyIndent out := by
  obtain ⟨h1, h2, h3, h4, h5, h6, h7⟩ := exRuled_ok _ (.inl rfl)
  exact C58_blanks_only_indent_with_comments_partial _ _ _ _ _ h1 h2 h3 h4 h5 (by decide +kernel) h6 h7 h
/-- Its formatted text; the lines of a comment that begins with `/**` begin with a blank. -/
example : formatTree true 20 ⟨80, 2⟩ (exRuled "/* a\n     * b\n */") =
    .ok "// head\nclass A {\n  Integer x; // one\n\n  /* a\n  * b\n  */\n  Integer y;\n  // two\n\n  // three\n}\n".toList := by decide +kernel
example (w : Nat) (out : Str) (h : formatTree true 60 ⟨w, 2⟩ (exRuled "/** a\n\n     b\n */") = .ok out) : blanksOnlyIndent out ∧ tidyEnds out = true := by
  obtain ⟨h1, h2, h3, h4, h5, h6, h7⟩ := exRuled_ok _ (.inr (.inr rfl))
  exact ⟨C58_blanks_only_indent_with_comments_partial _ _ _ _ _ h1 h2 h3 h4 h5 (by decide +kernel) h6 h7 h,
    C55_no_trailing_white_space_with_comments_partial _ _ _ _ _ h1 h2 h3 h4 h5 (by decide +kernel) h6 h7 h⟩
example : formatTree true 20 ⟨80, 2⟩ (exRuled "/** a\n\n     b\n */") =
    .ok "// head\nclass A {\n  Integer x; // one\n\n  /**\n   * a\n   *\n   * b\n   */\n  Integer y;\n  // two\n\n  // three\n}\n".toList := by
  decide +kernel

/-- **C55 is false for comments with empty lines**: the empty line of a comment in a body is printed as its indentation
(`Comment::build`, src/context.rs 138-223), unless the comment begins with `/**`. -/
theorem C55_comment_line_trails : ∃ root out, root.Closed ∧ root.ids.Nodup ∧ root.field = none ∧ conforms root = true ∧
    settled root = true ∧ updates root = true ∧ calls root = true ∧
    primsBy tightText (fun _ => true) "parser_output" none root.children = true ∧
    formatTree true 20 ⟨80, 2⟩ root = .ok out ∧ tidyEnds out = false := by
  obtain ⟨h1, h2, h3, h4, h5, h6, h7⟩ := exRuled_ok _ (.inr (.inl rfl))
  exact ⟨exRuled "/* a\n\n */",
    "// head\nclass A {\n  Integer x; // one\n\n  /* a\n  \n  */\n  Integer y;\n  // two\n\n  // three\n}\n".toList,
    h1, h2, h3, h4, h5, h6, h7, by decide +kernel, by decide +kernel, by decide⟩

/-- `class A { A() { super(); // c` and the `}` in lines of their own. -/
def exCalled : Node := (numbered 1 (exNode 1 "parser_output" 0 4 "" [
  exNode 2 "class_declaration" 0 4 "class A {...}" [
    exTok 3 "class" 0, exField "name" (exNode 4 "identifier" 0 0 "A" []),
    exField "body" (exNode 5 "class_body" 0 4 "{...}" [exTok 6 "{" 0,
      exNode 0 "constructor_declaration" 1 3 "A() {...}" [exField "name" (exNode 4 "identifier" 1 1 "A" []),
        exField "parameters" (exNode 0 "formal_parameters" 1 1 "()" [exTok 0 "(" 1, exTok 0 ")" 1]),
        exField "body" (exNode 0 "constructor_body" 1 3 "{...}" [exTok 0 "{" 1,
          exNode 0 "explicit_constructor_invocation" 2 2 "super();" [exField "constructor" (exNode 0 "super" 2 2 "super" []),
            exField "arguments" (exNode 0 "argument_list" 2 2 "()" [exTok 0 "(" 2, exTok 0 ")" 2]), exTok 0 ";" 2],
          exComment 0 true 2 "// c", exTok 0 "}" 3])],
      exTok 8 "}" 4])]])).1

/-- **C55 is false for a comment after a lone explicit constructor call**: a line that consists of white space is printed
between them and the `}` (`ConstructorBody::build`, src/data_model.rs 1805-1838). -/
theorem C55_call_comment_trails : ∃ root out, root.Closed ∧ root.ids.Nodup ∧ root.field = none ∧ conforms root = true ∧
    settled root = true ∧ updates root = true ∧
    primsBy tightText (fun l => !l.isEmpty) "parser_output" none root.children = true ∧
    formatTree true 20 ⟨80, 2⟩ root = .ok out ∧ tidyEnds out = false :=
  ⟨exCalled, "class A {\n  A() {\n    super(); // c\n    \n  }\n}\n".toList, closedB_iff _ (by decide), by decide, rfl,
    by decide, by decide, by decide, by decide +kernel, by decide +kernel, by decide⟩

end Afmt.Gram
