import Verif.Lines.Idem
import Verif.PropsMono
import Verif.PropsTokens

/-!
# Formatting a formatted text, lines between members: C51, C52

The specification is Verif/Reparse.lean: `alike` and `placed` describe the tree of the formatted text, `lined` the lines of
the members of bodies in a text.
-/

namespace Afmt
open Gram

/-! ## C52: the lines between members -/

/-- **C52**: in the formatted text of a tree that follows the grammar and has no comments, consecutive members of a body
(of a file, class, interface, constructor or block) are separated by exactly one line break or by exactly one blank line;
the latter if there were blank lines in the source, however many (or if the member is in the first line of the source,
which is the overflow of C16). -/
theorem C52_members_lined_partial (checks : Bool) (depth : Nat) (cfg : Config) (root : Node) (out : Str) (hp : root.Closed)
    (hi : root.ids.Nodup) (hf : root.field = none) (hc : conforms root = true) (hx : plain root = true)
    (ht : neats root.children = true) (h : formatTree checks depth cfg root = .ok out) : lined out 0 root = true :=
  Lines.format_lined hp hi hf hc hx ht h

/-! ## C51: formatting again -/

/-- **C51**: let `a` be a tree that follows the grammar, without comments, and `out` its formatted text.  If the parser
returns for `out` a tree that looks like `a`, with its nodes in the lines in which their characters are, then formatting
that tree gives `out` again, in both build profiles and with any stack that is at least as large. -/
theorem C51_idempotent_partial (a b : Node) (checks checks' : Bool) (depth depth' : Nat) (cfg : Config) (out : Str)
    (hcl : a.Closed) (hi : a.ids.Nodup) (hf : a.field = none) (hc : conforms a = true) (hx : plain a = true)
    (ht : neats a.children = true) (h : formatTree checks depth cfg a = .ok out)
    (hab : alike "" none a b = true) (hpl : placeds out 0 b.children = true) (hib : b.ids.Nodup) (hd : depth ≤ depth') :
    formatTree checks' depth' cfg b = .ok out := by
  obtain ⟨hs, hl⟩ := Lines.skeleton_again hcl hi hf hc hx ht h hab hpl
  have h1 := C53_more_stack_fewer_checks a cfg checks false depth depth' out hd (fun h => nomatch h) h
  have h2 := (C50_only_the_skeleton_matters a b false hs hi hib depth' cfg out).1 h1
  cases checks' with
  | false => exact h2
  | true => rw [C53_checks_irrelevant b hib hl, h2]

/-! ### Examples -/

/-- Example: a class with two fields; the number of the first id, the last row and the rows of the two fields. -/
def exLined (id er r1 r2 : Nat) (text : String) : Node := (numbered id (exNode 1 "parser_output" 0 er "" [
  exNode 2 "class_declaration" 0 er text [
    exTok 3 "class" 0, exField "name" (exNode 4 "identifier" 0 0 "A" []),
    exField "body" (exNode 5 "class_body" 0 er "{...}" [exTok 6 "{" 0,
      exShapeField 10 r1 "x" "Integer x;", exShapeField 20 r2 "y" "Integer y;", exTok 8 "}" er])]])).1

/-- Example: `class A { Integer x; Integer y; }` on the first line. -/
def exLine : Node := exLined 1 0 0 0 "class A { Integer x; Integer y; }"
/-- Example: the tree of the formatted text. -/
def exAgain : Node := exLined 101 4 1 3 "class A {\n  Integer x;\n\n  Integer y;\n}"

/-- The hypotheses of C52 and C51. -/
theorem exLine_ok : exLine.Closed ∧ exLine.ids.Nodup ∧ exLine.field = none ∧ conforms exLine = true ∧ plain exLine = true ∧
    neats exLine.children = true ∧
    formatTree false 20 ⟨80, 2⟩ exLine = .ok "class A {\n  Integer x;\n\n  Integer y;\n}\n".toList := by
  refine ⟨closedB_iff _ (by decide), by decide, rfl, by decide, by decide, by decide, by decide +kernel⟩

example : lined "class A {\n  Integer x;\n\n  Integer y;\n}\n".toList 0 exLine = true := by
  obtain ⟨h1, h2, h3, h4, h5, h6, h7⟩ := exLine_ok
  exact C52_members_lined_partial false 20 ⟨80, 2⟩ exLine _ h1 h2 h3 h4 h5 h6 h7
/-- Other texts with the same characters are not lined. -/
example : lined "class A {\n  Integer x;\n  Integer y;\n}\n".toList 0 exLine = false ∧
    lined "class A {\n  Integer x;\n\n\n  Integer y;\n}\n".toList 0 exLine = false ∧
    lined "class A { Integer x; Integer y; }\n".toList 0 exLine = false := by decide

/-- The tree of the formatted text differs from the tree of the source in rows, ids and texts; it is formatted to the same
text, in a development build too, where the source itself makes the program panic. -/
example : formatTree true 20 ⟨80, 2⟩ exAgain = .ok "class A {\n  Integer x;\n\n  Integer y;\n}\n".toList ∧
    formatTree true 20 ⟨80, 2⟩ exLine = .error .arithmetic := by
  obtain ⟨h1, h2, h3, h4, h5, h6, h7⟩ := exLine_ok
  exact ⟨C51_idempotent_partial exLine exAgain false true 20 20 ⟨80, 2⟩ _ h1 h2 h3 h4 h5 h6 h7 (by decide) (by decide) (by decide)
    (by omega), by decide +kernel⟩

end Afmt
