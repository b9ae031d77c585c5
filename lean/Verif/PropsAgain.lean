import Verif.PropsIdem
import Verif.PropsLoss

/-!
# C51 with comments and with changed letter case

`ofText` says that a tree is a tree of a text: every node has the characters and lines of its range, and there are only
blanks between the children.  `located` makes such a tree from the leaves of another one.
-/

namespace Afmt
open Gram

/-- A part of a text. -/
def slice (s : Str) (i j : Nat) : Str := (s.drop i).take (j - i)
/-- The line of a position. -/
def rowOf (s : Str) (i : Nat) : Nat := (s.take i).count '\n'

mutual
/-- The node is a node of the text (offsets in characters). -/
def ofText (s : Str) : Node → Bool
  | .mk _ _ _ _ _ _ sr er sb eb text children =>
    decide (sb ≤ eb) && decide (eb ≤ s.length) && text == slice s sb eb && sr == rowOf s sb && er == rowOf s eb &&
    (children.isEmpty || between s sb eb children)
/-- The siblings fill the range, up to blanks. -/
def between (s : Str) (i e : Nat) : List Node → Bool
  | [] => (ink (slice s i e)).isEmpty && decide (i ≤ e)
  | c :: cs => decide (i ≤ c.startByte) && (ink (slice s i c.startByte)).isEmpty && ofText s c && between s c.endByte e cs
end

/-- The first visible character from a position on. -/
def skipBlanks (s : Str) (i : Nat) : Nat := i + ((s.drop i).takeWhile isBlank).length

mutual
/-- The node, with its leaves at their places in the text from position `i` on. -/
def located (s : Str) (i : Nat) : Node → Node
  | .mk id kind named extra err field _ _ _ _ text [] =>
    let b := skipBlanks s i
    let e := b + text.length
    .mk id kind named extra err field (rowOf s b) (rowOf s e) b e (slice s b e) []
  | .mk id kind named extra err field _ _ _ _ _ (c :: cs) =>
    let ds := locateds s i (c :: cs)
    let b := skipBlanks s i
    let e := (ds.getLast?.map (·.endByte)).getD b
    .mk id kind named extra err field (rowOf s b) (rowOf s e) b e (slice s b e) ds
/-- Siblings. -/
def locateds (s : Str) (i : Nat) : List Node → List Node
  | [] => []
  | c :: cs => let d := located s i c; d :: locateds s d.endByte cs
end

/-- The source of the example. -/
def exTwiceSource : Str := "\nclass A {\n  void m() { f(); /* c */ f(); }\n}\n".toList
/-- The formatted source. -/
def exTwiceOut : Str := "class A {\n  void m() {\n    f(); /* c */ \n    f();\n  }\n}\n".toList
/-- The formatted source, formatted again. -/
def exTwiceOut2 : Str := "class A {\n  void m() {\n    f(); /* c */\n    f();\n  }\n}\n".toList
/-- The tree of a text of the example. -/
def exTwice (s : Str) : Node := located s 0 (methodOf [exCallStmt, exComment 0 false 1 "/* c */", exCallStmt])

/-- **C51 is false for trees with comments**: a block comment between two statements on one line is printed behind the first
statement, with a blank behind it; in the formatted text the line ends after the comment, so formatting again removes the
blank (`handle_post_comments`, src/utility.rs 446-474). -/
theorem C51_comment_not_idempotent : ofText exTwiceSource (exTwice exTwiceSource) = true ∧
    ofText exTwiceOut (exTwice exTwiceOut) = true ∧ alike "" none (exTwice exTwiceSource) (exTwice exTwiceOut) = true ∧
    Parsed (exTwice exTwiceSource) ∧ Parsed (exTwice exTwiceOut) ∧
    conforms (exTwice exTwiceSource) = true ∧ conforms (exTwice exTwiceOut) = true ∧
    formatTree true 60 ⟨80, 2⟩ (exTwice exTwiceSource) = .ok exTwiceOut ∧
    formatTree true 60 ⟨80, 2⟩ (exTwice exTwiceOut) = .ok exTwiceOut2 ∧ exTwiceOut ≠ exTwiceOut2 := by
  refine ⟨?_, ?_, ?_, ⟨closedB_iff _ ?_, ?_, ?_⟩, ⟨closedB_iff _ ?_, ?_, ?_⟩, ?_, ?_, ?_, ?_, ?_⟩ <;> decide +kernel

/-- Source, formatted source and twice formatted source of an `enum` with a comment before a comma. -/
def exCommaSource : Str := "\nenum E { A /* c */ , B }\n".toList
def exCommaOut : Str := "enum E {\n  A /* c */ ,\n  B\n}\n".toList
def exCommaOut2 : Str := "enum E {\n  A /* c */,\n  B\n}\n".toList
/-- The tree of a text of the example. -/
def exComma (s : Str) : Node := located s 0 (numbered 1 (exNode 0 "parser_output" 0 1 "" [
  nd "enum_declaration" [tk "enum", exField "name" (idn "E"), exField "body" (nd "enum_body" [tk "{",
    nd "enum_constant" [exField "name" (idn "A")], exComment 0 false 1 "/* c */", tk ",",
    nd "enum_constant" [exField "name" (idn "B")], tk "}"])]])).1

/-- **C51 is false for comments before a comma**: in the source the comma does not touch the
comment, so the comment is printed with a blank behind it; in the formatted text it is followed by the comma and a line break
(`Punctuation::build_inner`, src/context.rs 338-403, `handle_post_comments`, src/utility.rs 446-474). -/
theorem C51_comma_not_idempotent : ofText exCommaSource (exComma exCommaSource) = true ∧
    ofText exCommaOut (exComma exCommaOut) = true ∧ alike "" none (exComma exCommaSource) (exComma exCommaOut) = true ∧
    Parsed (exComma exCommaSource) ∧ Parsed (exComma exCommaOut) ∧
    conforms (exComma exCommaSource) = true ∧ conforms (exComma exCommaOut) = true ∧
    formatTree true 60 ⟨80, 2⟩ (exComma exCommaSource) = .ok exCommaOut ∧
    formatTree true 60 ⟨80, 2⟩ (exComma exCommaOut) = .ok exCommaOut2 ∧ exCommaOut ≠ exCommaOut2 := by
  refine ⟨?_, ?_, ?_, ⟨closedB_iff _ ?_, ?_, ?_⟩, ⟨closedB_iff _ ?_, ?_, ?_⟩, ?_, ?_, ?_, ?_, ?_⟩ <;> decide +kernel

/-! ### Letter case -/

mutual
/-- The texts of a skeleton. -/
def Skel.texts : Skel → List Str
  | .mk _ _ _ _ _ text _ _ children => text.toList ++ Skel.textss children
/-- Siblings. -/
def Skel.textss : List Skel → List Str
  | [] => []
  | k :: ks => k.texts ++ Skel.textss ks
end

/-- The tree of `class A { Boolean b = true; }`, located in a text with other letters or blanks. -/
def exCase (s : Str) : Node := located s 0 (classOf [] [nd "field_declaration" [
  exField "type" (lf "type_identifier" "Boolean"),
  exField "declarator" (nd "variable_declarator" [exField "name" (idn "b"), lf "assignment_operator" "=",
    exField "value" (lf "boolean" "true")]), tk ";"]])
/-- The source of the example. -/
def exCaseSource : Str := "\nCLASS A { Boolean b=TRUE ; }".toList
/-- The formatted source. -/
def exCaseOut : Str := "class A {\n  Boolean b = true;\n}\n".toList

/-- The hypotheses of C51 hold although the literal and the keyword have other letters in the formatted text. -/
example : formatTree true 60 ⟨80, 2⟩ (exCase exCaseOut) = .ok exCaseOut :=
  C51_idempotent_partial (exCase exCaseSource) (exCase exCaseOut) true true 60 60 ⟨80, 2⟩ exCaseOut (closedB_iff _ (by decide +kernel))
    (by decide +kernel) (by decide +kernel) (by decide +kernel) (by decide +kernel) (by decide +kernel) (by decide +kernel)
    (by decide +kernel) (by decide +kernel) (by decide +kernel) (by omega)
example : ofText exCaseSource (exCase exCaseSource) = true ∧ ofText exCaseOut (exCase exCaseOut) = true := by decide +kernel
/-- C50: the letters of the literal are not part of the skeleton, those of a name are. -/
example : (skeleton true (exCase exCaseSource)).texts = (skeleton true (exCase "\nclass A {\n\n  Boolean b = True; }".toList)).texts := by
  decide +kernel
example : skeleton true (exCase exCaseSource) ≠ skeleton true (exCase "\nclass A {\n\n  Boolean B = True; }".toList) := by
  intro h
  have := congrArg (fun s => (Skel.texts s)) h
  revert this
  decide +kernel

end Afmt
