import Verif.Trail.Text
import Verif.PropsLoss

/-!
# C55: no line of the formatted text ends with white space

Specification: `tidyEnds` (Trail/Mach.lean) says that no line of a text ends with a blank, a tab or a carriage return.
`crisps` (Trail/Text.lean) says the same of the texts of words, `updates` that every `for` statement with three parts
has an update.
-/

namespace Afmt.Gram
open Trail

/-- `tidyEnds` in terms of positions: white space is neither last nor directly before a line break. -/
theorem tidyEnds_iff (s : Str) : tidyEnds s = true ↔
    ∀ a c b, s = a ++ c :: b → isSpace c = true → b ≠ [] ∧ b.head? ≠ some '\n' := by
  induction s with
  | nil => exact ⟨fun _ a c b h => (by cases a <;> cases h), fun _ => rfl⟩
  | cons x s ih =>
    cases s with
    | nil =>
      constructor
      · intro h a c b e hc
        cases a with
        | nil => cases e; rw [tidyEnds, hc] at h; cases h
        | cons y a => cases a <;> cases e
      · intro h
        rw [tidyEnds]
        cases hx : isSpace x with
        | false => rfl
        | true => exact absurd rfl (h [] x [] rfl hx).1
    | cons y s =>
      rw [tidyEnds, Bool.and_eq_true, ih]
      constructor
      · rintro ⟨h1, h2⟩ a c b e hc
        cases a with
        | nil =>
          cases e
          refine ⟨by simp, ?_⟩
          rw [hc] at h1
          simpa using h1
        | cons z a => injection e with _ e2; exact h2 a c b e2 hc
      · intro h
        refine ⟨?_, fun a c b e hc => h (x :: a) c b (by rw [e]; rfl) hc⟩
        cases hx : isSpace x with
        | false => rfl
        | true =>
          have := (h [] x (y :: s) rfl hx).2
          simpa using this

/-- **C55** (trees without comments): no line of the output ends with white space, whatever the line width, provided that
the printed words of the tree do not contain such lines themselves and that `for` statements have updates.  Missing:
trees with comments, `for` statements without update and trees outside the grammar; for the first two the claim is
false, see `C55_block_comment_trails` and `C55_for_header_trails`. -/
theorem C55_no_trailing_white_space_partial (checks : Bool) (depth : Nat) (cfg : Config) (root : Node) (out : Str)
    (hcl : root.Closed) (hi : root.ids.Nodup) (hf : root.field = none) (hc : conforms root = true) (hx : plain root = true)
    (ht : crisps "parser_output" none root.children = true) (hu : updates root = true)
    (h : formatTree checks depth cfg root = .ok out) : tidyEnds out = true := by
  obtain ⟨body, e⟩ := C10_ends_with_newline checks depth cfg root out h
  rw [tidyEnds_eq, format_inner hcl hi hf hc hx ht hu h, e, ends_append (by simp)]
  rfl

/-- The hypotheses hold for the example of C43. -/
example (w : Nat) (out : Str) (h : formatTree true 60 ⟨w, 2⟩ (exBig [] []) = .ok out) : tidyEnds out = true :=
  C55_no_trailing_white_space_partial _ _ _ _ _ exBig_parsed.closed (by decide +kernel) rfl exBig_conforms (by decide +kernel)
    (by decide +kernel) (by decide +kernel) h
example : tidyEnds "a \nb".toList = false ∧ tidyEnds "a\n b ".toList = false ∧ tidyEnds "a\n\n b\n".toList = true := by decide

/-- `for (; i < n;<update>) f();` -/
def exForTail (update : List Node) : Node := methodOf [nd "for_statement" ([tk "for", tk "(", tk ";",
  exField "condition" (nd "binary_expression" [exField "left" (idn "i"), exField "operator" (tk "<"), exField "right" (idn "n")]),
  tk ";"] ++ update ++ [tk ")", exField "body" exCallStmt])]

/-- The hypotheses hold for a `for` statement with an update. -/
example (w : Nat) (out : Str) (h : formatTree true 60 ⟨w, 2⟩ (exForTail [exField "update" (exUpd "i")]) = .ok out) : tidyEnds out = true :=
  C55_no_trailing_white_space_partial _ _ _ _ _ (closedB_iff _ (by decide)) (by decide) (by decide) (by decide) (by decide)
    (by decide +kernel) (by decide +kernel) h
/-- The header of this `for` statement is broken. -/
example : formatTree true 60 ⟨20, 2⟩ (exForTail [exField "update" (exUpd "i")]) =
    .ok "class A {\n  void m() {\n    for (\n      ;\n      i < n;\n      i++\n    ) f();\n  }\n}\n".toList := by decide +kernel

/-- **C55 is false for `for` statements without an update**: if the header does not fit on a line, then the line of the
missing update consists of white space (src/data_model.rs 1515-1552). -/
theorem C55_for_header_trails : ∃ out, formatTree true 60 ⟨10, 2⟩ (exForTail []) = .ok out ∧ tidyEnds out = false ∧
    Parsed (exForTail []) ∧ conforms (exForTail []) = true ∧ plain (exForTail []) = true ∧
    crisps "parser_output" none (exForTail []).children = true := by
  refine ⟨"class A {\n  void m() {\n    for (\n      ;\n      i\n      < n;\n      \n    ) f();\n  }\n}\n".toList, ?_, ?_,
    ⟨closedB_iff _ (by decide), by decide, by decide⟩, ?_, ?_, ?_⟩ <;> decide +kernel

/-- `f(); /* c */ f();` -/
def exTrailComment : Node := methodOf [exCallStmt, exComment 0 false 1 "/* c */", exCallStmt]

/-- **C55 is false for trees with comments**: a block comment between two statements of one line is printed behind the
first one, with a blank behind it, and the line ends there (`handle_post_comments`, src/utility.rs 446-474). -/
theorem C55_block_comment_trails : ∃ out, formatTree true 60 ⟨80, 2⟩ exTrailComment = .ok out ∧ tidyEnds out = false ∧
    Parsed exTrailComment ∧ conforms exTrailComment = true ∧ crisps "parser_output" none exTrailComment.children = true ∧
    updates exTrailComment = true := by
  refine ⟨"class A {\n  void m() {\n    f(); /* c */ \n    f();\n  }\n}\n".toList, ?_, ?_,
    ⟨closedB_iff _ (by decide), by decide, by decide⟩, ?_, ?_, ?_⟩ <;> decide +kernel

end Afmt.Gram
