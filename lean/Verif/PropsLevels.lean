import Verif.Levels.Final
import Verif.PropsEnds
import Verif.PropsCtor

/-!
# C59: the indentation shows the nesting

Specification (LevelSpec.lean): `nested` lists the visible characters of a syntax tree together with the places where a
line has to begin, and with the number of blanks before it; `columns` reads off a text which of its visible characters
begin a line, and after how many blanks; `agree` compares the two character by character.  Nothing of it refers to the
formatter.
-/

namespace Afmt.Gram
open Trail

/-- **C59**: the visible characters of the output are those of the tree and its comments, every member of the file, of a
class, interface, block, constructor, `switch` or accessor list, every comment between them that is not at the end of the
line of a member, every further line of a comment, every closing brace of those, every unbraced branch of an `if` and its
`else` begin a line, and that line is indented by `indentSize` for each construct around it, whatever the line width; the
lines of a comment keep the blanks they begin with.  Missing: comments in other places and comments with empty lines, `for`
statements without update, comments after an explicit constructor call that is alone in its body, trees outside the
grammar, and the three cases that `regulars` excludes; for these the claim is false, see `C59_anonymous_class`,
`C59_constructor_call` and `C59_else_branch`. -/
theorem C59_indentation_is_nesting_partial (checks : Bool) (depth : Nat) (cfg : Config) (root : Node) (out : Str)
    (hcl : root.Closed) (hi : root.ids.Nodup) (hf : root.field = none) (hc : conforms root = true) (hs : settled root = true)
    (ht : primsBy (fun s => tightText s && !lead s) (fun l => !l.isEmpty) "parser_output" none root.children = true)
    (hu : updates root = true) (hca : calls root = true) (hr : regulars root = true) (hne : root.children ≠ [])
    (h : formatTree checks depth cfg root = .ok out) :
    agree (columns (some 0) out) (wanted none (nested cfg.indentSize 0 root)) = true := by
  have e1 : @admitted Gate.edges = fun s => tightText s && !lead s := by funext s; simp [admitted, Gate.ok, Gate.on]
  have e2 : (fun l : Str => !l.isEmpty && @Gate.ok Gate.edges l) = (fun l => !l.isEmpty) := by funext l; simp [Gate.ok]
  exact Levels.format_columns hcl hi hf hc hs (by unfold Ends.prims; rw [e1, e2]; exact ht) hu hca hr hne h

/-- The specification on a small tree: `class A { A() { super(); f(); f(); } }`. -/
example : wanted none (nested 2 0 (ctorOf (exCtorBody 2 3 4))) =
    [some 0, none, none, none, none, none, none] ++   -- class A {
    [some 2, none, none, none] ++                     -- A() {
    [some 4, none, none, none, none, none, none, none] ++ -- super();
    [some 4, none, none, none] ++ [some 4, none, none, none] ++ -- f(); f();
    [some 2, some 0] := by decide +kernel             -- } }
/-- Columns of a text. -/
example : columns (some 0) "a b\n  c\nd\n".toList = [some 0, none, some 2, some 0] := by decide
/-- Texts with other indentation do not agree with the tree. -/
example : agree (columns (some 0) "class A {\n  A() {\n    super();\n    f();\n   f();\n  }\n}\n".toList)
      (wanted none (nested 2 0 (ctorOf (exCtorBody 2 3 4)))) = false ∧
    agree (columns (some 0) "class A {\n  A() {\n    super(); f();\n    f();\n  }\n}\n".toList)
      (wanted none (nested 2 0 (ctorOf (exCtorBody 2 3 4)))) = false ∧
    agree (columns (some 0) "class A {\n  A() {\n    super();\n    f();\n    f();\n  }\n  }\n".toList)
      (wanted none (nested 2 0 (ctorOf (exCtorBody 2 3 4)))) = false ∧
    agree (columns (some 0) "class A {\n  A() {\n    super();\n    f();\n    f();\n  }\n}\n".toList)
      (wanted none (nested 2 0 (ctorOf (exCtorBody 2 3 4)))) = true := by decide +kernel

/-- The hypotheses hold for the example of C43. -/
example (w : Nat) (out : Str) (h : formatTree true 60 ⟨w, 2⟩ (exBig [] []) = .ok out) :
    agree (columns (some 0) out) (wanted none (nested 2 0 (exBig [] []))) = true :=
  C59_indentation_is_nesting_partial _ _ ⟨w, 2⟩ _ _ exBig_parsed.closed (by decide +kernel) rfl exBig_conforms (by decide +kernel)
    (by decide +kernel) (by decide +kernel) (by decide +kernel) (by decide +kernel) (by decide +kernel) h

/-- `(a)` as a condition. -/
def exIfCond : Node := exField "condition" (nd "parenthesized_expression" [tk "(", idn "a", tk ")"])
/-- A block. -/
def exBraces (ss : List Node) : Node := nd "block" ([tk "{"] ++ ss ++ [tk "}"])
/-- `if (a) ... else ...` -/
def exIfElse (a b : Node) : Node :=
  nd "if_statement" [tk "if", exIfCond, exField "consequence" a, tk "else", exField "alternative" b]
/-- `while (a) ...` -/
def exLoop (b : Node) : Node := nd "while_statement" [tk "while", exIfCond, exField "body" b]
/-- `if (a) { f(); } else { while (a) { f(); } } if (a) f(); else if (a) while (a) { f(); } else f();` -/
def exLevels : Node := methodOf [exIfElse (exBraces [exCallStmt]) (exBraces [exLoop (exBraces [exCallStmt])]),
  exIfElse exCallStmt (exIfElse (exLoop (exBraces [exCallStmt])) exCallStmt)]

/-- The hypotheses hold for branches with and without braces. -/
example (w k : Nat) (out : Str) (h : formatTree true 60 ⟨w, k⟩ exLevels = .ok out) :
    agree (columns (some 0) out) (wanted none (nested k 0 exLevels)) = true :=
  C59_indentation_is_nesting_partial _ _ ⟨w, k⟩ _ _ (closedB_iff _ (by decide)) (by decide +kernel) rfl (by decide +kernel)
    (by decide +kernel) (by decide +kernel) (by decide +kernel) (by decide +kernel) (by decide +kernel) (by decide +kernel) h
example : formatTree true 60 ⟨80, 2⟩ exLevels = .ok ("class A {\n  void m() {\n    if (a) {\n      f();\n    } else {\n" ++
    "      while (a) {\n        f();\n      }\n    }\n    if (a)\n      f();\n    else if (a)\n      while (a) {\n" ++
    "        f();\n      }\n    else\n      f();\n  }\n}\n").toList := by decide +kernel

/-- The specification on a tree with comments: the line breaks of the comment with several lines are required, the comment
at the end of a line begins no line. -/
example : wanted none (nested 2 0 (exRuled "/** a\n\n     b\n */")) =
    [some 0, none, none, none, none, none] ++         -- // head
    [some 0, none, none, none, none, none, none] ++   -- class A {
    [some 2, none, none, none, none, none, none, none, none] ++ [none, none, none, none, none] ++ -- Integer x; // one
    [some 2, none, none] ++ [some 3, none] ++ [some 3] ++ [some 3, none] ++ [some 3, none] ++ -- /** and * a and * and * b and */
    [some 2, none, none, none, none, none, none, none, none] ++ -- Integer y;
    [some 2, none, none, none, none] ++ [some 2, none, none, none, none, none, none] ++ -- // two and // three
    [some 0] := by decide +kernel                     -- }
/-- Texts with other indentation of comments do not agree with the tree. -/
example : agree (columns (some 0) ("// head\nclass A {\n  Integer x; // one\n\n  /**\n   * a\n   *\n   * b\n   */\n" ++
        "  Integer y;\n  // two\n\n  // three\n}\n").toList) (wanted none (nested 2 0 (exRuled "/** a\n\n     b\n */"))) = true ∧
    agree (columns (some 0) ("// head\nclass A {\n  Integer x; // one\n\n  /**\n   * a\n   *\n   * b\n   */\n" ++
        "  Integer y;\n  // two\n\n// three\n}\n").toList) (wanted none (nested 2 0 (exRuled "/** a\n\n     b\n */"))) = false ∧
    agree (columns (some 0) ("// head\nclass A {\n  Integer x; // one\n\n  /**\n   * a\n   *\n   * b\n  */\n" ++
        "  Integer y;\n  // two\n\n  // three\n}\n").toList) (wanted none (nested 2 0 (exRuled "/** a\n\n     b\n */"))) = false ∧
    agree (columns (some 0) ("// head\nclass A {\n  Integer x; // one\n\n  /**\n   * a\n   *\n   * b\n   */\n" ++
        "  Integer y; // two\n\n  // three\n}\n").toList) (wanted none (nested 2 0 (exRuled "/** a\n\n     b\n */"))) = false := by
  decide +kernel

/-- The hypotheses hold for trees with comments. -/
example (w k : Nat) (out : Str) (h : formatTree true 60 ⟨w, k⟩ (exRuled "/** a\n\n     b\n */") = .ok out) :
    agree (columns (some 0) out) (wanted none (nested k 0 (exRuled "/** a\n\n     b\n */"))) = true := by
  obtain ⟨h1, h2, h3, h4, h5, h6, h7⟩ := exRuled_ok _ (.inr (.inr rfl))
  exact C59_indentation_is_nesting_partial _ _ ⟨w, k⟩ _ _ h1 h2 h3 h4 h5 (by decide +kernel) h6 h7 (by decide +kernel)
    (by decide +kernel) h
example (w k : Nat) (out : Str) (h : formatTree true 60 ⟨w, k⟩ exNote = .ok out) :
    agree (columns (some 0) out) (wanted none (nested k 0 exNote)) = true := by
  obtain ⟨h1, h2, h3, h4, h5, _, _⟩ := exNote_ok
  exact C59_indentation_is_nesting_partial _ _ ⟨w, k⟩ _ _ h1 h2 h3 h4 h5 (by decide +kernel) (by decide) (by decide) (by decide +kernel)
    (by decide +kernel) h

/-- `if (a) f(); else while (a) { f(); }` -/
def exElseLoop : Node := methodOf [exIfElse exCallStmt (exLoop (exBraces [exCallStmt]))]

/-- **C59 is false for an `else` branch without braces that has inner lines**: its first line is indented, the lines
inside of it are not (src/data_model.rs 1380-1386). -/
theorem C59_else_branch : Parsed exElseLoop ∧ conforms exElseLoop = true ∧ plain exElseLoop = true ∧
    ∃ out, formatTree true 60 ⟨80, 2⟩ exElseLoop = .ok out ∧
      agree (columns (some 0) out) (wanted none (nested 2 0 exElseLoop)) = false := by
  refine ⟨⟨closedB_iff _ (by decide), by decide +kernel, by decide +kernel⟩, by decide +kernel, by decide +kernel,
    "class A {\n  void m() {\n    if (a)\n      f();\n    else\n      while (a) {\n      f();\n    }\n  }\n}\n".toList, ?_, ?_⟩ <;>
    decide +kernel

/-- `f(new B() { C d; });` -/
def exAnonymous : Node := methodOf [nd "expression_statement" [nd "method_invocation" [exField "name" (idn "f"),
  exField "arguments" (nd "argument_list" [tk "(", nd "object_creation_expression" [tk "new",
    exField "type" (lf "type_identifier" "B"), exField "arguments" (nd "argument_list" [tk "(", tk ")"]),
    nd "class_body" [tk "{", nd "field_declaration" [exField "type" (lf "type_identifier" "C"),
      exField "declarator" (nd "variable_declarator" [exField "name" (idn "d")]), tk ";"], tk "}"]], tk ")"])], tk ";"]]

/-- **C59 is false for anonymous classes**: as an argument the class is indented once more, although no line begins
there. -/
theorem C59_anonymous_class : Parsed exAnonymous ∧ conforms exAnonymous = true ∧ plain exAnonymous = true ∧
    ∃ out, formatTree true 60 ⟨80, 2⟩ exAnonymous = .ok out ∧
      agree (columns (some 0) out) (wanted none (nested 2 0 exAnonymous)) = false := by
  refine ⟨⟨closedB_iff _ (by decide), by decide +kernel, by decide +kernel⟩, by decide +kernel, by decide +kernel,
    "class A {\n  void m() {\n    f(new B(){\n        C d;\n      });\n  }\n}\n".toList, ?_, ?_⟩ <;>
    decide +kernel

/-- **C59 is false for constructors with an empty line after the call of another constructor**: the next statement is
printed at the indentation of the braces (see C48). -/
theorem C59_constructor_call : plain (ctorOf (exCtorBody 2 4 5)) = true ∧ ∃ out,
    formatTree true 60 ⟨80, 2⟩ (ctorOf (exCtorBody 2 4 5)) = .ok out ∧
      agree (columns (some 0) out) (wanted none (nested 2 0 (ctorOf (exCtorBody 2 4 5)))) = false :=
  ⟨by decide +kernel, _, C48_outdented_file.2.2, by decide +kernel⟩

end Afmt.Gram
