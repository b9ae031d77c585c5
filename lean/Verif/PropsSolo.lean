import Verif.Solo.Join
import Verif.Solo.Conf
import Verif.PropsBody
import Verif.PropsTokens

/-!
# C66: the members of a file are formatted independently

Specification: `Node.only` (the file with one of its members), `joinMembers` and `beginsWithText` in Verif/Solo/Spec.lean.
-/

namespace Afmt
open Gram

/-- **C66**: a file whose members are not separated by comments is formatted member by member.  If every member alone can be
formatted, and contains no comments or gives a text that begins with a visible character, then the whole file can be formatted, and the result is the texts of
the members one below the other, with one empty line wherever the source has at least one row between two members.  Row 0
is excluded for all members but the first (`C11_row_zero_false`). -/
theorem C66_members_apart (checks : Bool) (depth : Nat) (cfg : Config) (root : Node) (out : Node → Str) (hids : root.ids.Nodup)
    (hne : root.children ≠ []) (hm : ∀ m ∈ root.children, m.named = true ∧ m.extra = false)
    (hr : ∀ m ∈ root.children.tail, m.startRow ≠ 0)
    (hout : ∀ m ∈ root.children, formatTree checks depth cfg (root.only m) = .ok (out m))
    (hb : ∀ m ∈ root.children, beginsWithText (out m) = true ∨ m.extras = []) :
    formatTree checks depth cfg root = .ok (joinMembers out root.children) :=
  Solo.whole hids hne hm hr hout hb

/-- Example: three classes, the first with a comment, the second after an empty row and too wide for one line.
```
class A {
  // a
}

@x class B extends C implements D {}
enum E {}
``` -/
def exThree : Node := (numbered 1 (exNode 0 "parser_output" 0 5 "" [
  exNode 0 "class_declaration" 0 2 "" [exTok 0 "class" 0, exField "name" (exNode 0 "identifier" 0 0 "A" []),
    exField "body" (exNode 0 "class_body" 0 2 "" [exTok 0 "{" 0, exComment 0 true 1 "// a", exTok 0 "}" 2])],
  exNode 0 "class_declaration" 4 4 "" [
    exNode 0 "modifiers" 4 4 "" [exNode 0 "annotation" 4 4 "" [exTok 0 "@" 4, exField "name" (exNode 0 "identifier" 4 4 "x" [])]],
    exTok 0 "class" 4, exField "name" (exNode 0 "identifier" 4 4 "B" []),
    exNode 0 "superclass" 4 4 "" [exTok 0 "extends" 4, exNode 0 "type_identifier" 4 4 "C" []],
    exNode 0 "interfaces" 4 4 "" [exTok 0 "implements" 4, exNode 0 "type_list" 4 4 "" [exNode 0 "type_identifier" 4 4 "D" []]],
    exField "body" (exNode 0 "class_body" 4 4 "" [exTok 0 "{" 4, exTok 0 "}" 4])],
  exNode 0 "enum_declaration" 5 5 "" [exTok 0 "enum" 5, exField "name" (exNode 0 "identifier" 5 5 "E" []),
    exField "body" (exNode 0 "enum_body" 5 5 "" [exTok 0 "{" 5, exTok 0 "}" 5])]])).1

/-- The texts of its members. -/
def exThreeText (m : Node) : Str :=
  if m.startRow = 0 then "class A {\n  // a\n}\n".toList
  else if m.startRow = 4 then "@x\nclass B\n  extends C implements D {\n}\n".toList
  else "enum E {\n}\n".toList

example : formatTree true 20 ⟨20, 2⟩ exThree =
    .ok "class A {\n  // a\n}\n\n@x\nclass B\n  extends C implements D {\n}\nenum E {\n}\n".toList := by
  have h := C66_members_apart true 20 ⟨20, 2⟩ exThree exThreeText (by decide) (by decide) (by decide) (by decide) (by decide +kernel) (by decide)
  exact h.trans (by decide +kernel)

/-- **C66**: replacing a member by another one that takes the same rows changes the text of this member only: there are texts
`a` and `b` such that the formatted files are `a`, the formatted member, `b`. -/
theorem C66_edit_stays_local (checks : Bool) (depth : Nat) (cfg : Config) (file : Node) (xs ys : List Node) (m m' : Node) (out : Node → Str)
    (hrows : m'.startRow = m.startRow ∧ m'.endRow = m.endRow)
    (hids : (file.withMembers (xs ++ m :: ys)).ids.Nodup) (hids' : (file.withMembers (xs ++ m' :: ys)).ids.Nodup)
    (hm : ∀ x ∈ xs ++ m :: m' :: ys, x.named = true ∧ x.extra = false) (hr : ∀ x ∈ (xs ++ m :: ys).tail, x.startRow ≠ 0)
    (hout : ∀ x ∈ xs ++ m :: m' :: ys, formatTree checks depth cfg (file.only x) = .ok (out x) ∧ (beginsWithText (out x) = true ∨ x.extras = [])) :
    ∃ a b, formatTree checks depth cfg (file.withMembers (xs ++ m :: ys)) = .ok (a ++ out m ++ b) ∧
      formatTree checks depth cfg (file.withMembers (xs ++ m' :: ys)) = .ok (a ++ out m' ++ b) := by
  have sub : ∀ x, x ∈ xs ++ m :: ys → x ∈ xs ++ m :: m' :: ys := by
    intro x hx
    simp only [List.mem_append, List.mem_cons] at hx ⊢
    rcases hx with h | h | h
    · exact .inl h
    · exact .inr (.inl h)
    · exact .inr (.inr (.inr h))
  have sub' : ∀ x, x ∈ xs ++ m' :: ys → x ∈ xs ++ m :: m' :: ys := by
    intro x hx
    simp only [List.mem_append, List.mem_cons] at hx ⊢
    rcases hx with h | h | h
    · exact .inl h
    · exact .inr (.inr (.inl h))
    · exact .inr (.inr (.inr h))
  have hr' : ∀ x ∈ (xs ++ m' :: ys).tail, x.startRow ≠ 0 := by
    cases xs with
    | nil => exact hr
    | cons x xs =>
      simp only [List.cons_append, List.tail_cons, List.mem_append, List.mem_cons] at hr ⊢
      intro y hy
      rcases hy with h | h | h
      · exact hr y (.inl h)
      · rw [h, hrows.1]; exact hr m (.inr (.inl rfl))
      · exact hr y (.inr (.inr h))
  refine ⟨Solo.textBefore out m.startRow xs, Solo.textAfter out m.endRow ys, ?_, ?_⟩
  · have h := C66_members_apart checks depth cfg (file.withMembers (xs ++ m :: ys)) out hids
      (by rw [Solo.withMembers_children]; simp)
      (by rw [Solo.withMembers_children]; exact fun x hx => hm x (sub x hx))
      (by rw [Solo.withMembers_children]; exact hr)
      (by rw [Solo.withMembers_children]; intro x hx; rw [Solo.withMembers_only]; exact (hout x (sub x hx)).1)
      (by rw [Solo.withMembers_children]; exact fun x hx => (hout x (sub x hx)).2)
    rw [h, Solo.withMembers_children, Solo.join_split]
  · have h := C66_members_apart checks depth cfg (file.withMembers (xs ++ m' :: ys)) out hids'
      (by rw [Solo.withMembers_children]; simp)
      (by rw [Solo.withMembers_children]; exact fun x hx => hm x (sub' x hx))
      (by rw [Solo.withMembers_children]; exact hr')
      (by rw [Solo.withMembers_children]; intro x hx; rw [Solo.withMembers_only]; exact (hout x (sub' x hx)).1)
      (by rw [Solo.withMembers_children]; exact fun x hx => (hout x (sub' x hx)).2)
    rw [h, Solo.withMembers_children, Solo.join_split, hrows.1, hrows.2]

/-- Example: another enum in the place of the class `B` of `exThree`. -/
def exOther : Node := (numbered 50 (exNode 0 "enum_declaration" 4 4 "" [exTok 0 "enum" 4, exField "name" (exNode 0 "identifier" 4 4 "F" []),
    exField "body" (exNode 0 "enum_body" 4 4 "" [exTok 0 "{" 4, exTok 0 "}" 4])])).1

/-- The texts of the members and of the other enum. -/
def exOtherText (m : Node) : Str := if m.id = 50 then "enum F {\n}\n".toList else exThreeText m

example : ∃ a b, formatTree true 20 ⟨20, 2⟩ exThree = .ok (a ++ "@x\nclass B\n  extends C implements D {\n}\n".toList ++ b) ∧
    formatTree true 20 ⟨20, 2⟩ (exThree.withMembers [exThree.children[0], exOther, exThree.children[2]]) =
      .ok (a ++ "enum F {\n}\n".toList ++ b) := by
  have h := C66_edit_stays_local true 20 ⟨20, 2⟩ exThree [exThree.children[0]] [exThree.children[2]] exThree.children[1] exOther exOtherText
    (by decide) (by decide) (by decide) (by decide) (by decide) (by decide +kernel)
  exact h

/-- **C66** without comments: the release build formats every file that follows the grammar and contains no comments member by
member, given a stack for `8 * depth + 3` nested calls: every member, as the only member of the file, is formatted to a text
with the code of this member, and the file to these texts one below the other. -/
theorem C66_comment_free (fuel : Nat) (cfg : Config) (root : Node) (hp : Parsed root) (hids : root.ids.Nodup) (hc : conforms root = true)
    (he : root.hasError = false) (hx : root.extras = []) (hk : cfg.indentSize ≠ 0) (hf : 8 * depth root + 2 < fuel)
    (hne : root.children ≠ []) (hr : ∀ m ∈ root.children.tail, m.startRow ≠ 0) :
    ∃ out : Node → Str, formatTree false fuel cfg root = .ok (joinMembers out root.children) ∧
      ∀ m ∈ root.children, formatTree false fuel cfg (root.only m) = .ok (out m) ∧ Same (ink (out m)) (code (root.only m)) := by
  let out : Node → Str := fun m => match formatTree false fuel cfg (root.only m) with
    | .ok s => s
    | .error _ => []
  have hq := Solo.members_quiet hx
  have h1 : ∀ m ∈ root.children, formatTree false fuel cfg (root.only m) = .ok (out m) ∧ Same (ink (out m)) (code (root.only m)) := by
    intro m hm
    obtain ⟨q1, q2⟩ := hq m hm
    obtain ⟨s, h, hs⟩ := C49_comment_free_succeeds fuel cfg (root.only m) (Solo.only_parsed hp hids hm) (Solo.only_conforms hc hm q1)
      (Solo.only_noError he hm) (Solo.only_extras q1 q2) hk (by have := Solo.only_depth hm; omega)
    have e : out m = s := by simp only [out, h]
    rw [e]
    exact ⟨h, hs⟩
  exact ⟨out, C66_members_apart false fuel cfg root out hids hne (fun m hm => ⟨Solo.members_named hc m hm (hq m hm).1, (hq m hm).1⟩) hr
    (fun m hm => (h1 m hm).1) (fun m hm => .inr (hq m hm).2), h1⟩

/-- `exThree` without its first member. -/
example : ∃ out : Node → Str, formatTree false 100 ⟨20, 2⟩ (exThree.withMembers exThree.children.tail) =
      .ok (joinMembers out exThree.children.tail) ∧
    ∀ m ∈ exThree.children.tail, formatTree false 100 ⟨20, 2⟩ (exThree.only m) = .ok (out m) ∧ Same (ink (out m)) (code (exThree.only m)) :=
  C66_comment_free 100 ⟨20, 2⟩ (exThree.withMembers exThree.children.tail) ⟨closedB_iff _ (by decide), by decide, by decide⟩ (by decide)
    (by decide +kernel) (by decide) (by decide) (by decide) (by decide) (by decide) (by decide)

/-- **C66**: a member that is moved to another file is formatted to the same text there: if `m` in the file `f` and `m'` in the
file `g` have the same skeleton (C50), then the same text `t`, with the code of `m`, is in both formatted files.  For files
without comments that follow the grammar. -/
theorem C66_moved_member (fuel : Nat) (cfg : Config) (f g m m' : Node) (hk : cfg.indentSize ≠ 0)
    (hp : Parsed f) (hids : f.ids.Nodup) (hc : conforms f = true) (he : f.hasError = false) (hx : f.extras = [])
    (hf : 8 * depth f + 2 < fuel) (hr : ∀ x ∈ f.children.tail, x.startRow ≠ 0)
    (hp' : Parsed g) (hids' : g.ids.Nodup) (hc' : conforms g = true) (he' : g.hasError = false) (hx' : g.extras = [])
    (hf' : 8 * depth g + 2 < fuel) (hr' : ∀ x ∈ g.children.tail, x.startRow ≠ 0)
    (hm : m ∈ f.children) (hm' : m' ∈ g.children) (hs : skeleton false (f.only m) = skeleton false (g.only m')) :
    ∃ t a b a' b', formatTree false fuel cfg (f.only m) = .ok t ∧ Same (ink t) (code (f.only m)) ∧
      formatTree false fuel cfg f = .ok (a ++ t ++ b) ∧ formatTree false fuel cfg g = .ok (a' ++ t ++ b') := by
  obtain ⟨out, h1, h2⟩ := C66_comment_free fuel cfg f hp hids hc he hx hk hf (List.ne_nil_of_mem hm) hr
  obtain ⟨out', h1', h2'⟩ := C66_comment_free fuel cfg g hp' hids' hc' he' hx' hk hf' (List.ne_nil_of_mem hm') hr'
  have e := (C50_only_the_skeleton_matters _ _ false hs (Solo.only_ids hids hm) (Solo.only_ids hids' hm') fuel cfg (out m)).1 (h2 m hm).1
  rw [(h2' m' hm').1, Except.ok.injEq] at e
  obtain ⟨xs, ys, hl⟩ := List.append_of_mem hm
  obtain ⟨xs', ys', hl'⟩ := List.append_of_mem hm'
  rw [hl, Solo.join_split] at h1
  rw [hl', Solo.join_split, e] at h1'
  exact ⟨out m, _, _, _, _, (h2 m hm).1, (h2 m hm).2, h1, h1'⟩

/-- The enum of `exThree`, in row 4 of another file and with other node ids. -/
def exMoved : Node := (numbered 70 (exNode 0 "parser_output" 3 6 "" [
  exNode 0 "enum_declaration" 4 4 "" [exTok 0 "enum" 4, exField "name" (exNode 0 "identifier" 4 4 "E" []),
    exField "body" (exNode 0 "enum_body" 4 4 "" [exTok 0 "{" 4, exTok 0 "}" 4])],
  exNode 0 "enum_declaration" 6 6 "" [exTok 0 "enum" 6, exField "name" (exNode 0 "identifier" 6 6 "G" []),
    exField "body" (exNode 0 "enum_body" 6 6 "" [exTok 0 "{" 6, exTok 0 "}" 6])]])).1

example : ∃ t a b a' b', formatTree false 100 ⟨20, 2⟩ ((exThree.withMembers exThree.children.tail).only exThree.children[2]) = .ok t ∧
    Same (ink t) (code ((exThree.withMembers exThree.children.tail).only exThree.children[2])) ∧
    formatTree false 100 ⟨20, 2⟩ (exThree.withMembers exThree.children.tail) = .ok (a ++ t ++ b) ∧
    formatTree false 100 ⟨20, 2⟩ exMoved = .ok (a' ++ t ++ b') :=
  C66_moved_member 100 ⟨20, 2⟩ (exThree.withMembers exThree.children.tail) exMoved exThree.children[2] exMoved.children[0] (by decide)
    ⟨closedB_iff _ (by decide), by decide, by decide⟩ (by decide) (by decide +kernel) (by decide) (by decide) (by decide) (by decide)
    ⟨closedB_iff _ (by decide), by decide, by decide⟩ (by decide) (by decide +kernel) (by decide) (by decide) (by decide) (by decide)
    (show exThree.children[2] ∈ [exThree.children[1], exThree.children[2]] by simp) (List.getElem_mem _) rfl

/-- **C66**: a file that follows the grammar, with comments inside of its members only, can be formatted by the release build
exactly if each of its members, as the only member of the file, can be formatted. -/
theorem C66_formatted_iff_members (fuel : Nat) (cfg : Config) (root : Node) (hp : Parsed root) (hids : root.ids.Nodup)
    (hc : conforms root = true) (hf : 8 * depth root + 2 < fuel) (hne : root.children ≠ []) (hm : ∀ m ∈ root.children, m.extra = false)
    (hr : ∀ m ∈ root.children.tail, m.startRow ≠ 0) :
    (∃ t, formatTree false fuel cfg root = .ok t) ↔ ∀ m ∈ root.children, ∃ t, formatTree false fuel cfg (root.only m) = .ok t :=
  ⟨fun ⟨_, h⟩ => Solo.ok_of_whole hp hids hc hf hne hm hr h, Solo.whole_of_ok hids hc hne hm hr⟩

/-- A file that can be formatted. -/
example : (∃ t, formatTree false 100 ⟨20, 2⟩ exThree = .ok t) ↔ ∀ m ∈ exThree.children, ∃ t, formatTree false 100 ⟨20, 2⟩ (exThree.only m) = .ok t :=
  C66_formatted_iff_members 100 ⟨20, 2⟩ exThree ⟨closedB_iff _ (by decide), by decide, by decide⟩ (by decide) (by decide +kernel) (by decide)
    (by decide) (by decide) (by decide)

/-- Example: a file that cannot be formatted because of its second member.
```
class A {}
class B extends C /*c*/ .D {}
``` -/
def exLost : Node := (numbered 1 (exNode 0 "parser_output" 0 4 "" [
  exNode 0 "class_declaration" 0 0 "" [exTok 0 "class" 0, exField "name" (exNode 0 "identifier" 0 0 "A" []),
    exField "body" (exNode 0 "class_body" 0 0 "" [exTok 0 "{" 0, exTok 0 "}" 0])],
  exNode 0 "class_declaration" 1 1 "" [exTok 0 "class" 1, exField "name" (exNode 0 "identifier" 1 1 "B" []),
    exNode 0 "superclass" 1 1 "" [exTok 0 "extends" 1, exNode 0 "scoped_type_identifier" 1 1 "" [
      exNode 0 "type_identifier" 1 1 "C" [], exComment 0 false 1 "/*c*/", exTok 0 "." 1, exNode 0 "type_identifier" 1 1 "D" []]],
    exField "body" (exNode 0 "class_body" 1 1 "" [exTok 0 "{" 1, exTok 0 "}" 1])]])).1

example : ¬ ∃ t, formatTree false 100 ⟨80, 2⟩ exLost = .ok t := by
  rw [C66_formatted_iff_members 100 ⟨80, 2⟩ exLost ⟨closedB_iff _ (by decide), by decide, by decide⟩ (by decide) (by decide +kernel) (by decide)
    (by decide) (by decide) (by decide)]
  intro h
  obtain ⟨t, ht⟩ := h (exLost.children.getLast (by decide)) (List.getLast_mem _)
  have e : formatTree false 100 ⟨80, 2⟩ (exLost.only (exLost.children.getLast (by decide))) = .error .erasedComment := by decide +kernel
  rw [e] at ht
  cases ht

/-- Row 0: the text of the whole file has an empty line that the source does not have. -/
example : formatTree false 9 ⟨80, 2⟩ exTwoClasses ≠ .ok (joinMembers (fun m => match formatTree false 9 ⟨80, 2⟩ (exTwoClasses.only m) with
    | .ok s => s
    | .error _ => []) exTwoClasses.children) := by decide +kernel

end Afmt
