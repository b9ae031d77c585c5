import Verif.Width.Notes
import Verif.Width.Settle
import Verif.Width.Indent
import Verif.PropsPlaces
import Verif.PropsBlanks
import Verif.PropsEnds

/-!
# The line width

C62: a width that is enough for the lines written at a greater width gives the same text.  C63: beyond some width the width
does not matter.  C64: the number of lines at great widths is the smallest one; but a greater width may give more lines.
C65: at great widths the indentation size only multiplies the indentation.
-/

namespace Afmt
namespace Gram

open Trail Width

/-- A text without line breaks, without white space at its end and without a blank at its beginning. -/
def oneLine (s : Str) : Bool := tightText s && !(s.head? == some ' ') && !s.contains '\n'

/-- Every line of the text is at most `w` bytes long. -/
def fitsIn (w : Nat) (s : Str) : Prop := ∀ l ∈ splitNl s, byteLen l ≤ w

instance (w : Nat) (s : Str) : Decidable (fitsIn w s) := inferInstanceAs (Decidable (∀ l ∈ splitNl s, byteLen l ≤ w))

theorem admitted_whole : @admitted Gate.whole = oneLine := by
  funext s
  show (tightText s && (!s.contains '\n' && (!true || !lead s))) = (tightText s && !(s.head? == some ' ') && !s.contains '\n')
  unfold lead
  cases tightText s <;> cases s.contains '\n' <;> cases (s.head? == some ' ') <;> rfl

/-- **C62** (trees without comments): if every line of the text formatted at some width is at most `w` bytes long, `w` being
no greater than that width, then the text formatted at width `w` is the same.  So lines are broken only if the text does not
fit, and lowering `max_width` to the length of the longest line changes nothing.  Missing: trees with comments, for which the
claim is false, see `C62_comment_breaks_line`; words with line breaks; `for` statements without update; and trees outside
the grammar. -/
theorem C62_longest_line_is_enough_partial (checks : Bool) (depth k w w' : Nat) (root : Node) (out : Str)
    (hcl : root.Closed) (hi : root.ids.Nodup) (hf : root.field = none) (hc : conforms root = true) (hx : plain root = true)
    (ht : crispsBy oneLine "parser_output" none root.children = true) (hu : updates root = true) (hw : w ≤ w')
    (h : formatTree checks depth ⟨w', k⟩ root = .ok out) (hl : fitsIn w out) :
    formatTree checks depth ⟨w, k⟩ root = .ok out := by
  obtain ⟨d, h1, h2, h3⟩ := format_whole hcl hi hf hc hx (by rw [admitted_whole]; exact ht) hu h
  have h4 : out = layout w' d := by have := h3 w'; rw [h] at this; cases this; rfl
  subst h4
  rw [h3 w, layout_same hw h1 (h2 w') hl]

/-- The printed line of a comment has no line break. -/
def noteLine (l : Str) : Bool := !l.isEmpty && !l.contains '\n'

/-- **C62** with comments: the same if the comments are between members.  Missing: comments in other places, for which the
claim is false, see `C62_comment_breaks_line`; and as in `C62_longest_line_is_enough_partial`. -/
theorem C62_longest_line_is_enough_with_comments_partial (checks : Bool) (depth k w w' : Nat) (root : Node) (out : Str)
    (hcl : root.Closed) (hi : root.ids.Nodup) (hf : root.field = none) (hc : conforms root = true) (hs : settled root = true)
    (ht : primsBy oneLine noteLine "parser_output" none root.children = true) (hu : updates root = true)
    (hca : calls root = true) (hw : w ≤ w') (h : formatTree checks depth ⟨w', k⟩ root = .ok out) (hl : fitsIn w out) :
    formatTree checks depth ⟨w, k⟩ root = .ok out := by
  by_cases hne : root.children = []
  · have hx := Ends.bare_plain (conforms_root hc).2.2.1 hne
    exact C62_longest_line_is_enough_partial checks depth k w w' root out hcl hi hf hc hx (by rw [hne]; rfl) hu hw h hl
  · have hp : @Ends.prims Gate.whole "parser_output" none root.children = true := by
      unfold Ends.prims; rw [admitted_whole]; exact ht
    obtain ⟨d, h1, h2, h3⟩ := ends_whole hcl hi hf hc hs hne hp hu hca h
    have h4 : out = layout w' d := by have := h3 w'; rw [h] at this; cases this; rfl
    subst h4
    rw [h3 w, layout_same hw h1 (h2 w') hl]

/-- Comments before and between members, one of them behind code. -/
example : formatTree true 20 ⟨19, 2⟩ exNote = .ok exNoteText := by
  obtain ⟨h1, h2, h3, h4, h5, _, h⟩ := exNote_ok
  exact C62_longest_line_is_enough_with_comments_partial true 20 2 19 80 exNote exNoteText h1 h2 h3 h4 h5 (by decide +kernel)
    (by decide) (by decide) (by decide) h (by decide +kernel)

/-- Example tree: `class A { Object m() { return f(a)[g(b, c)]; } }` -/
def exIndex : Node := (numbered 1 (exNode 0 "parser_output" 0 0 "" [
  exNode 0 "class_declaration" 0 0 "" [exTok 0 "class" 0, exField "name" (exLeaf "identifier" "A" 0),
    exField "body" (exNode 0 "class_body" 0 0 "" [exTok 0 "{" 0,
      exNode 0 "method_declaration" 0 0 "" [
        exField "type" (exLeaf "type_identifier" "Object" 0), exField "name" (exLeaf "identifier" "m" 0),
        exField "parameters" (exNode 0 "formal_parameters" 0 0 "" [exTok 0 "(" 0, exTok 0 ")" 0]),
        exField "body" (exNode 0 "block" 0 0 "" [exTok 0 "{" 0,
          exNode 0 "return_statement" 0 0 "" [exTok 0 "return" 0,
            exNode 0 "array_access" 0 0 "" [
              exField "array" (exNode 0 "method_invocation" 0 0 "" [exField "name" (exLeaf "identifier" "f" 0),
                exField "arguments" (exNode 0 "argument_list" 0 0 "" [exTok 0 "(" 0, exLeaf "identifier" "a" 0, exTok 0 ")" 0])]),
              exTok 0 "[" 0,
              exField "index" (exNode 0 "method_invocation" 0 0 "" [exField "name" (exLeaf "identifier" "g" 0),
                exField "arguments" (exNode 0 "argument_list" 0 0 "" [exTok 0 "(" 0, exLeaf "identifier" "b" 0,
                  exTok 0 "," 0, exLeaf "identifier" "c" 0, exTok 0 ")" 0])]),
              exTok 0 "]" 0],
            exTok 0 ";" 0],
          exTok 0 "}" 0])],
      exTok 0 "}" 0])]])).1

/-- The text of the example on as few lines as possible; its longest line has 25 bytes. -/
def exIndexText : Str := "class A {\n  Object m() {\n    return f(a)[g(b, c)];\n  }\n}\n".toList

/-- The hypotheses hold for the example of C43. -/
example (w : Nat) (out : Str) (h : formatTree true 60 ⟨w, 2⟩ (exBig [] []) = .ok out) (hw : 50 ≤ w) (hl : fitsIn 50 out) :
    formatTree true 60 ⟨50, 2⟩ (exBig [] []) = .ok out :=
  C62_longest_line_is_enough_partial _ _ _ _ _ _ _ exBig_parsed.closed (by decide +kernel) rfl exBig_conforms
    (by decide +kernel) (by decide +kernel) (by decide +kernel) hw h hl

/-- They also hold for this tree with a longest line of 25 bytes. -/
example : formatTree true 60 ⟨25, 2⟩ exIndex = .ok exIndexText :=
  C62_longest_line_is_enough_partial true 60 2 25 80 exIndex exIndexText (closedB_iff _ (by decide)) (by decide) rfl
    (by decide +kernel) (by decide +kernel) (by decide +kernel) (by decide +kernel) (by decide) (by decide +kernel)
    (by decide +kernel)

/-- With 24 bytes the text is another one. -/
example : ¬ fitsIn 24 exIndexText ∧ formatTree true 60 ⟨24, 2⟩ exIndex ≠ .ok exIndexText := by
  refine ⟨by decide +kernel, ?_⟩
  decide +kernel

/-- Example tree: `class A { void m() { x /* c */ = y; } }` -/
def exAssign : Node := (numbered 1 (exNode 0 "parser_output" 0 0 "" [
  exNode 0 "class_declaration" 0 0 "" [exTok 0 "class" 0, exField "name" (exLeaf "identifier" "A" 0),
    exField "body" (exNode 0 "class_body" 0 0 "" [exTok 0 "{" 0,
      exNode 0 "method_declaration" 0 0 "" [
        exField "type" (exLeaf "void_type" "void" 0), exField "name" (exLeaf "identifier" "m" 0),
        exField "parameters" (exNode 0 "formal_parameters" 0 0 "" [exTok 0 "(" 0, exTok 0 ")" 0]),
        exField "body" (exNode 0 "block" 0 0 "" [exTok 0 "{" 0,
          exNode 0 "expression_statement" 0 0 "" [
            exNode 0 "assignment_expression" 0 0 "" [exField "left" (exLeaf "identifier" "x" 0),
              exComment 0 false 0 "/* c */", exField "operator" (exLeaf "assignment_operator" "=" 0),
              exField "right" (exLeaf "identifier" "y" 0)],
            exTok 0 ";" 0],
          exTok 0 "}" 0])],
      exTok 0 "}" 0])]])).1

/-- **C62 is false for trees with comments**: `x /* c */ = y;` takes 18 bytes with its indentation, but is broken at width 18:
the blank in front of `=` is left out since there is one behind the comment (src/doc.rs 140-146), but `fits`
(src/doc.rs 204-275) counts both. -/
theorem C62_comment_breaks_line : ∃ root out out', Parsed root ∧ conforms root = true ∧ updates root = true ∧
    formatTree true 60 ⟨19, 2⟩ root = .ok out ∧ fitsIn 18 out ∧ formatTree true 60 ⟨18, 2⟩ root = .ok out' ∧ out ≠ out' ∧
    out = "class A {\n  void m() {\n    x /* c */ = y;\n  }\n}\n".toList ∧
    out' = "class A {\n  void m() {\n    x /* c */ =\n      y;\n  }\n}\n".toList :=
  ⟨exAssign, _, _, ⟨closedB_iff _ (by decide), by decide, by decide⟩, by decide +kernel, by decide +kernel, by decide +kernel,
    by decide +kernel, by decide +kernel, by decide +kernel, rfl, rfl⟩

/-- The layouts of a tree that can be formatted. -/
theorem layouts {checks : Bool} {depth k w : Nat} {root : Node} {out : Str}
    (h : formatTree checks depth ⟨w, k⟩ root = .ok out) :
    ∃ d : Doc, d.GroupOnly ∧ ∀ w, formatTree checks depth ⟨w, k⟩ root = .ok (layout w d) := by
  obtain ⟨cm, p, is, log, d, hcm, hn, -, -, hb, hit, -, hout⟩ := formatTree_content h
  refine ⟨d, groupOnly_of_items hit, fun w' => ?_⟩
  cases h3 : formatTree checks depth ⟨w', k⟩ root with
  | error e =>
    rw [((C01_max_width_only_whitespace checks depth root k w w').1 e).2 h3] at h
    cases h
  | ok out' =>
    obtain ⟨cm', p', is', log', d', hcm', hn', -, -, hb', -, -, hout'⟩ := formatTree_content h3
    rw [hcm] at hcm'; cases hcm'
    rw [hn] at hn'; cases hn'
    rw [hb] at hb'; cases hb'
    rw [hout']

/-- **C63**: for every tree, whether or not it can be formatted, there is a width beyond which the result of formatting does
not depend on the width. -/
theorem C63_wide_enough (checks : Bool) (depth k : Nat) (root : Node) :
    ∃ W, ∀ w, W ≤ w → formatTree checks depth ⟨w, k⟩ root = formatTree checks depth ⟨W, k⟩ root := by
  cases h : formatTree checks depth ⟨0, k⟩ root with
  | error e =>
    exact ⟨0, fun w _ => by rw [h]; exact ((C01_max_width_only_whitespace checks depth root k 0 w).1 e).1 h⟩
  | ok out =>
    obtain ⟨d, -, h2⟩ := layouts h
    obtain ⟨W, hW⟩ := layout_settles d
    exact ⟨W, fun w hw => by rw [h2 w, h2 W, hW w hw, hW W (Nat.le_refl _)]⟩

/-- For the example tree width 25 is wide enough; no smaller one is. -/
example (w : Nat) (hw : 80 ≤ w) (out : Str) (h : formatTree true 60 ⟨w, 2⟩ exIndex = .ok out) (hl : fitsIn 25 out) :
    formatTree true 60 ⟨w, 2⟩ exIndex = formatTree true 60 ⟨25, 2⟩ exIndex := by
  rw [h, C62_longest_line_is_enough_partial true 60 2 25 w exIndex out (closedB_iff _ (by decide)) (by decide) rfl
    (by decide +kernel) (by decide +kernel) (by decide +kernel) (by decide +kernel) (by omega) h hl]

/-- Number of lines. -/
def lineCount (s : Str) : Nat := (splitNl s).length

theorem lineCount_eq (s : Str) : lineCount s = s.count '\n' + 1 := by
  unfold lineCount
  induction s with
  | nil => rfl
  | cons c s ih =>
    rw [splitNl, List.count_cons]
    split
    · rename_i h; subst h; simp [ih]
    · rename_i h
      have hn : splitNl s ≠ [] := by intro e; rw [e] at ih; simp at ih
      cases hs : splitNl s with
      | nil => exact absurd hs hn
      | cons l ls => rw [hs] at ih; simp [h] at ih ⊢; exact ih

/-- **C64** (for great widths): from some width on no other width gives fewer lines.  The claim for any two widths is
false, see `C64_wider_gives_more_lines`. -/
theorem C64_widest_has_fewest_lines_partial (checks : Bool) (depth k : Nat) (root : Node) :
    ∃ W, ∀ w w' out out', W ≤ w → formatTree checks depth ⟨w, k⟩ root = .ok out →
      formatTree checks depth ⟨w', k⟩ root = .ok out' → lineCount out ≤ lineCount out' := by
  cases h : formatTree checks depth ⟨0, k⟩ root with
  | error e =>
    refine ⟨0, fun w w' out out' _ h' => ?_⟩
    rw [((C01_max_width_only_whitespace checks depth root k 0 w).1 e).1 h] at h'
    cases h'
  | ok out =>
    obtain ⟨d, h1, h2⟩ := layouts h
    obtain ⟨W, hW⟩ := layout_settles d
    refine ⟨W, fun w w' out out' hw h3 h4 => ?_⟩
    rw [h2] at h3 h4
    cases h3; cases h4
    rw [hW w hw, lineCount_eq, lineCount_eq]
    exact Nat.succ_le_succ (layout_fewer w' h1)

/-- **C64** (for width 0): no width gives more lines than width 0. -/
theorem C64_narrowest_has_most_lines_partial (checks : Bool) (depth k w : Nat) (root : Node) (out out' : Str)
    (h : formatTree checks depth ⟨w, k⟩ root = .ok out) (h' : formatTree checks depth ⟨0, k⟩ root = .ok out') :
    lineCount out ≤ lineCount out' := by
  obtain ⟨d, h1, h2⟩ := layouts h
  rw [h2] at h h'
  cases h; cases h'
  rw [lineCount_eq, lineCount_eq]
  exact Nat.succ_le_succ (layout_most w h1)

/-- **C64 is false for any two widths**: at width 17 `f(a)[g(b, c)]` is broken inside of `f(..)` only, at width 18
inside of `g(..)` only, which gives one more line. -/
theorem C64_wider_gives_more_lines : ∃ root out out', Parsed root ∧ conforms root = true ∧ plain root = true ∧
    formatTree true 60 ⟨17, 2⟩ root = .ok out ∧ formatTree true 60 ⟨18, 2⟩ root = .ok out' ∧ lineCount out < lineCount out' ∧
    out = "class A {\n  Object m() {\n    return f(\n      a\n    )[g(b, c)];\n  }\n}\n".toList ∧
    out' = "class A {\n  Object m() {\n    return f(a)[g(\n      b,\n      c\n    )];\n  }\n}\n".toList :=
  ⟨exIndex, _, _, ⟨closedB_iff _ (by decide), by decide, by decide⟩, by decide +kernel, by decide +kernel, by decide +kernel,
    by decide +kernel, by decide +kernel, rfl, rfl⟩

/-- The texts of the example have 6 lines at most widths (the last one is empty), 8 at width 17, 9 at width 18 and 11 at width 0. -/
example : (formatTree true 60 ⟨0, 2⟩ exIndex).toOption.map lineCount = some 11 ∧ (formatTree true 60 ⟨80, 2⟩ exIndex).toOption.map lineCount = some 6 ∧
    (formatTree true 60 ⟨17, 2⟩ exIndex).toOption.map lineCount = some 8 ∧
    (formatTree true 60 ⟨18, 2⟩ exIndex).toOption.map lineCount = some 9 := by decide +kernel

/-- **C65**: at great widths the indentation size multiplies the indentation of the lines and changes nothing else: there are
lines with levels of indentation, the same for all sizes, and the text formatted with size `k` has just these lines, each
indented by `k` blanks per level. -/
theorem C65_indent_size_scales (checks : Bool) (depth : Nat) (root : Node) :
    ∃ ls : List (Nat × Str), ∀ k, 0 < k → ∃ W, ∀ w out, W ≤ w → formatTree checks depth ⟨w, k⟩ root = .ok out →
      splitNl out = ls.map (fun l => List.replicate (k * l.1) ' ' ++ l.2) := by
  cases h : formatTree checks depth ⟨0, 1⟩ root with
  | error e =>
    refine ⟨[], fun k hk => ⟨0, fun w out _ h' => ?_⟩⟩
    have h1 := ((C02_indent_size_only_whitespace checks depth root 0 1 k (by decide) hk).1 e).1 h
    rw [((C01_max_width_only_whitespace checks depth root k 0 w).1 e).1 h1] at h'
    cases h'
  | ok out1 =>
    obtain ⟨cm, p, is, log, d, hcm, hn, -, -, hb, -, -, -⟩ := formatTree_content h
    obtain ⟨ls, hls⟩ := layoutI_lines d
    refine ⟨ls, fun k hk => ?_⟩
    obtain ⟨W, hW⟩ := layout_settles (scale k d)
    refine ⟨W, fun w out hw h' => ?_⟩
    obtain ⟨cm', p', is', log', d', hcm', hn', -, -, hb', -, -, hout⟩ := formatTree_content h'
    rw [hcm] at hcm'; cases hcm'
    rw [hn] at hn'; cases hn'
    have hb2 : Prog.build k cm p = .ok (d', log') := hb'
    rw [build_scale k cm p d log hb] at hb2
    cases hb2
    rw [hout, hW w hw]
    exact hls k hk

/-- **C65 needs the great width**: at width 25 the example of C63 fits in its lines with size 2, but not with size 3. -/
theorem C65_narrow_width : ∃ root out out', Parsed root ∧ conforms root = true ∧ plain root = true ∧
    formatTree true 60 ⟨25, 2⟩ root = .ok out ∧ formatTree true 60 ⟨25, 3⟩ root = .ok out' ∧ lineCount out < lineCount out' :=
  ⟨exIndex, _, _, ⟨closedB_iff _ (by decide), by decide, by decide⟩, by decide +kernel, by decide +kernel,
    rfl, rfl, by decide +kernel⟩

/-- Two sizes for the example of C63. -/
example : (formatTree true 60 ⟨80, 1⟩ exIndex).toOption.map splitNl =
      some ([(0, "class A {"), (1, "Object m() {"), (2, "return f(a)[g(b, c)];"), (1, "}"), (0, "}"), (0, "")].map
        (fun l => List.replicate (1 * l.1) ' ' ++ l.2.toList)) ∧
    (formatTree true 60 ⟨80, 3⟩ exIndex).toOption.map splitNl =
      some ([(0, "class A {"), (1, "Object m() {"), (2, "return f(a)[g(b, c)];"), (1, "}"), (0, "}"), (0, "")].map
        (fun l => List.replicate (3 * l.1) ' ' ++ l.2.toList)) := by decide +kernel

end Gram
end Afmt
