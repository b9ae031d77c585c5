import Verif.Notes.Again
import Verif.PropsIdem

/-!
# Members and comments between them: C51 and C52

The specification is Verif/Settled.lean: `settled` trees have their comments between members, `linedN` describes the lines
of members and comments in a text, `alikeN` and `placedN` the tree of the formatted text.
-/

namespace Afmt
open Gram

/-! ## C52: the lines between members and comments -/

/-- **C52** with comments: in the formatted text of a tree that follows the grammar and whose comments are in bodies, in
lines of their own or at the end of the last line of a member, consecutive members and comments of a body are separated by
exactly one line break or by exactly one blank line, the latter if there were blank lines in the source, however many; a
comment at the end of a line stays at the end of that line and in one line. -/
theorem C52_members_and_comments_lined_partial (checks : Bool) (depth : Nat) (cfg : Config) (root : Node) (out : Str) (hp : root.Closed)
    (hi : root.ids.Nodup) (hf : root.field = none) (hc : conforms root = true) (hs : settled root = true)
    (ht : neats root.children = true) (h : formatTree checks depth cfg root = .ok out) : linedN out 0 root = true :=
  Notes.format_linedN hp hi hf hc hs ht h

/-! ## C51: formatting again -/

/-- **C51** with comments: let `a` be a tree that follows the grammar and whose comments are in bodies, in lines of their own
or at the end of the last line of a member, and `out` its formatted text.  If the parser returns for `out` a tree that
looks like `a`, with its nodes in the lines in which their characters are and the comments written as they were printed, then
formatting that tree gives `out` again, in both build profiles and with any stack that is at least as large.  The comments
after a member must not be in the first line of the source or of `out`. -/
theorem C51_idempotent_with_comments_partial (a b : Node) (checks checks' : Bool) (depth depth' : Nat) (cfg : Config) (out : Str)
    (hcl : a.Closed) (hi : a.ids.Nodup) (hf : a.field = none) (hc : conforms a = true) (hs : settled a = true)
    (ht : neats a.children = true) (h : formatTree checks depth cfg a = .ok out) (hab : alikeN "" none a b = true)
    (hpl : placedNs out 0 b.children = true) (hla : lateNotes a = true) (hlb : lateNotes b = true) (hib : b.ids.Nodup)
    (hd : depth ≤ depth') : formatTree checks' depth' cfg b = .ok out := by
  obtain ⟨hsk, hl⟩ := Notes.skeleton_again hcl hi hf hc hs ht h hab hpl hla hlb
  have h1 := C53_more_stack_fewer_checks a cfg checks false depth depth' out hd (fun h => nomatch h) h
  have h2 := (C50_only_the_skeleton_matters a b false hsk hi hib depth' cfg out).1 h1
  cases checks' with
  | false => exact h2
  | true => rw [C53_checks_irrelevant b hib hl, h2]

/-! ### Examples -/

/-- Example: a comment that ends in another line. -/
def exBlock (row endRow : Nat) (text : String) : Node := { exComment 0 false row text with endRow }

/-- Example: a class with two fields and comments; the number of the first id, rows and texts of the comments. -/
def exNotes (id : Nat) (r1 r2 r3 r4 r5 r6 er : Nat) (text block : String) : Node := (numbered id (exNode 1 "parser_output" 0 er "" [
  exComment 0 true 0 "// head",
  exNode 2 "class_declaration" 1 er text [
    exTok 3 "class" 1, exField "name" (exNode 4 "identifier" 1 1 "A" []),
    exField "body" (exNode 5 "class_body" 1 er "{...}" [exTok 6 "{" 1,
      exShapeField 10 r1 "x" "Integer x;", exComment 0 true r1 "// one", exBlock r2 r3 block,
      exShapeField 20 r4 "y" "Integer y;", exComment 0 true r5 "// two", exComment 0 true r6 "// three",
      exTok 8 "}" er])]])).1

/-- Example: a class with a comment at the end of a line, one between members and two before the `}`. -/
def exNote : Node := exNotes 1 2 6 8 9 10 13 15
  "class A {\n Integer x; // one\n\n\n\n   /* a\n       *  b\n*/\n Integer y;\n// two\n\n\n// three\n\n}" "/* a\n       *  b\n*/"

/-- Its formatted text. -/
def exNoteText : Str :=
  "// head\nclass A {\n  Integer x; // one\n\n  /* a\n  *  b\n  */\n  Integer y;\n  // two\n\n  // three\n}\n".toList

/-- The hypotheses of C52. -/
theorem exNote_ok : exNote.Closed ∧ exNote.ids.Nodup ∧ exNote.field = none ∧ conforms exNote = true ∧ settled exNote = true ∧
    neats exNote.children = true ∧ formatTree true 20 ⟨80, 2⟩ exNote = .ok exNoteText := by
  refine ⟨closedB_iff _ (by decide), by decide, rfl, by decide, by decide, by decide, by decide +kernel⟩

/-- The tree of the formatted text. -/
def exNoteAgain : Node := exNotes 201 2 4 6 7 8 10 11
  "class A {\n  Integer x; // one\n\n  /* a\n  *  b\n  */\n  Integer y;\n  // two\n\n  // three\n}" "/* a\n  *  b\n  */"

/-- The other hypotheses of C51; the trees are different, also up to the texts of the comments. -/
theorem exNote_again : alikeN "" none exNote exNoteAgain = true ∧ placedNs exNoteText 0 exNoteAgain.children = true ∧
    lateNotes exNote = true ∧ lateNotes exNoteAgain = true ∧ exNoteAgain.ids.Nodup := by
  refine ⟨by decide +kernel, by decide +kernel, by decide, by decide, by decide⟩

example : formatTree false 30 ⟨80, 2⟩ exNoteAgain = .ok exNoteText := by
  obtain ⟨h1, h2, h3, h4, h5, h6, h7⟩ := exNote_ok
  obtain ⟨g1, g2, g3, g4, g5⟩ := exNote_again
  exact C51_idempotent_with_comments_partial exNote exNoteAgain true false 20 30 ⟨80, 2⟩ _ h1 h2 h3 h4 h5 h6 h7 g1 g2 g3 g4 g5 (by decide)

example : linedN exNoteText 0 exNote = true := by
  obtain ⟨h1, h2, h3, h4, h5, h6, h7⟩ := exNote_ok
  exact C52_members_and_comments_lined_partial true 20 ⟨80, 2⟩ exNote _ h1 h2 h3 h4 h5 h6 h7
/-- Other texts with the same characters are not lined: the comment at the end of the line in the next line, no blank line
before the second comment, a blank line after it. -/
example : linedN ("// head\nclass A {\n  Integer x;\n  // one\n\n  /* a\n  *  b\n  */\n  Integer y;\n  // two\n\n  // three\n}\n".toList) 0 exNote = false ∧
    linedN ("// head\nclass A {\n  Integer x; // one\n  /* a\n  *  b\n  */\n  Integer y;\n  // two\n\n  // three\n}\n".toList) 0 exNote = false ∧
    linedN ("// head\nclass A {\n  Integer x; // one\n\n  /* a\n  *  b\n  */\n\n  Integer y;\n  // two\n\n  // three\n}\n".toList) 0 exNote = false := by
  decide

end Afmt
