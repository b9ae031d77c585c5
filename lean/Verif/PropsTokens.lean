import Verif.Gram.Final

/-!
# Properties over trees that follow the grammar: C15, C19, C42, C43, C49

The specification is Gram/Grammar.lean: which trees follow the grammar (`conforms`) and the visible characters of their
code (`code`).  `Parsed` are three facts about every tree the parser returns.
-/

namespace Afmt.Gram
open Afmt

/-! ### Example -/

/-- Example trees: a named leaf. -/
def exLeaf (kind text : String) (row : Nat) : Node := exNode 0 kind row row text []
mutual
/-- Example trees: ids and bytes in preorder. -/
def numbered (k : Nat) : Node → Node × Nat
  | .mk _ kind named extra err field sr er _ _ text children =>
    let r := numberedAll (k + 1) children
    (.mk k kind named extra err field sr er k r.2 text r.1, r.2)
/-- `numbered` of siblings. -/
def numberedAll (k : Nat) : List Node → List Node × Nat
  | [] => ([], k)
  | c :: cs =>
    let r := numbered k c
    let s := numberedAll r.2 cs
    (r.1 :: s.1, s.2)
end
/-- ```
PUBLIC class A <pre> { <post>

  Integer x = y + foo(1, 'a b');

  Object m() { if (True) return [select Id FROM B WHERE NOT X = 7];
  }
}
``` -/
def exBig (pre post : List Node) : Node := (numbered 1 (exNode 0 "parser_output" 0 6 "" [
  exNode 0 "class_declaration" 0 6 "" ([exNode 0 "modifiers" 0 0 "" [exNode 0 "modifier" 0 0 "" [exLeaf "public" "PUBLIC" 0]],
    exTok 0 "class" 0, exField "name" (exLeaf "identifier" "A" 0)] ++ pre ++ [
    exField "body" (exNode 0 "class_body" 0 6 "" ([exTok 0 "{" 0] ++ post ++ [
      exNode 0 "field_declaration" 2 2 "" [
        exField "type" (exLeaf "type_identifier" "Integer" 2),
        exField "declarator" (exNode 0 "variable_declarator" 2 2 "" [
          exField "name" (exLeaf "identifier" "x" 2),
          (exLeaf "assignment_operator" "=" 2),
          exField "value" (exNode 0 "binary_expression" 2 2 "" [
            exField "left" (exLeaf "identifier" "y" 2), exField "operator" (exTok 0 "+" 2),
            exField "right" (exNode 0 "method_invocation" 2 2 "" [
              exField "name" (exLeaf "identifier" "foo" 2),
              exField "arguments" (exNode 0 "argument_list" 2 2 "" [exTok 0 "(" 2, exLeaf "int" "1" 2, exTok 0 "," 2,
                exLeaf "string_literal" "'a b'" 2, exTok 0 ")" 2])])])]),
        exTok 0 ";" 2],
      exNode 0 "method_declaration" 4 5 "" [
        exField "type" (exLeaf "type_identifier" "Object" 4), exField "name" (exLeaf "identifier" "m" 4),
        exField "parameters" (exNode 0 "formal_parameters" 4 4 "" [exTok 0 "(" 4, exTok 0 ")" 4]),
        exField "body" (exNode 0 "block" 4 5 "" [exTok 0 "{" 4,
          exNode 0 "if_statement" 4 4 "" [exTok 0 "if" 4,
            exField "condition" (exNode 0 "parenthesized_expression" 4 4 "" [exTok 0 "(" 4, exLeaf "boolean" "True" 4, exTok 0 ")" 4]),
            exField "consequence" (exNode 0 "return_statement" 4 4 "" [exTok 0 "return" 4,
              exNode 0 "query_expression" 4 4 "" [exTok 0 "[" 4,
                exNode 0 "soql_query_body" 4 4 "" [
                  exField "select_clause" (exNode 0 "select_clause" 4 4 "" [{ exTok 0 "SELECT" 4 with text := "select".toList },
                    exNode 0 "field_identifier" 4 4 "" [exLeaf "identifier" "Id" 4]]),
                  exField "from_clause" (exNode 0 "from_clause" 4 4 "" [exTok 0 "FROM" 4,
                    exNode 0 "storage_identifier" 4 4 "" [exLeaf "identifier" "B" 4]]),
                  exField "where_clause" (exNode 0 "where_clause" 4 4 "" [exTok 0 "WHERE" 4,
                    exNode 0 "not_expression" 4 4 "" [exTok 0 "NOT" 4,
                      exNode 0 "comparison_expression" 4 4 "" [
                        exNode 0 "field_identifier" 4 4 "" [exLeaf "identifier" "X" 4],
                        exLeaf "value_comparison_operator" "=" 4,
                        exLeaf "int" "7" 4]]])],
                exTok 0 "]" 4],
              exTok 0 ";" 4])],
          exTok 0 "}" 5])],
      exTok 0 "}" 6]))])])).1

/-- The example with comments. -/
def exBigC : Node := exBig [exComment 0 false 0 "/* k */"] [exComment 0 true 0 "// 1", exComment 0 true 1 "// 2"]

theorem exBig_conforms : conforms (exBig [] []) = true := by decide
theorem exBigC_conforms : conforms exBigC = true := by decide

mutual
/-- Decision procedure for `Node.Closed`. -/
def closedB : Node → Bool
  | .mk _ _ _ _ _ _ _ _ _ _ _ children => kidsClosedB children
/-- `closedB` of siblings. -/
def kidsClosedB : List Node → Bool
  | [] => true
  | c :: r => (c.associable || c.children.isEmpty) && closedB c && kidsClosedB r
end
mutual
theorem closedB_iff : ∀ n : Node, closedB n = true → n.Closed
  | .mk _ _ _ _ _ _ _ _ _ _ _ children, h => by
    rw [closedB] at h; rw [Node.Closed]; exact kidsClosedB_iff children h
theorem kidsClosedB_iff : ∀ ns : List Node, kidsClosedB ns = true → kidsClosed ns
  | [], _ => by rw [kidsClosed]; trivial
  | c :: r, h => by
    rw [kidsClosedB] at h
    simp only [Bool.and_eq_true, Bool.or_eq_true, List.isEmpty_iff] at h
    rw [kidsClosed]
    refine ⟨fun e => h.1.1.resolve_left (by simp [e]), closedB_iff c h.1.2, kidsClosedB_iff r h.2⟩
end

theorem exBig_parsed : Parsed (exBig [] []) := ⟨closedB_iff _ (by decide), by decide, by decide⟩
theorem exBigC_parsed : Parsed exBigC := ⟨closedB_iff _ (by decide), by decide, by decide⟩

/-! ### C43

The full statement quantifies over all trees of the Apex grammar.  It is false: the constructs of C44 and some others
lose tokens.  The productions in Gram/Grammar.lean leave them out, so the theorems are called `_partial`. -/

theorem same_fold : ∀ {s : Str} {k : List (Bool × Char)}, Same s k → fold s = fold (k.map (·.2))
  | [], [], _ => rfl
  | c :: s, (b, d) :: k, h => by
    rw [Same] at h
    have := same_fold h.2
    simp only [fold, List.map_cons] at this ⊢
    rw [this]
    rcases h.1 with h | h
    · rw [h]
    · rw [h.2]
  | [], _ :: _, h => h.elim
  | _ :: _, [], h => h.elim

theorem inks_eq_ink : ∀ {is : List Item}, commentsOf is = [] → is.flatMap Item.ink = inkI is
  | [], _ => rfl
  | .code s :: is, h => by
    have : commentsOf is = [] := by simpa [commentsOf] using h
    have := inks_eq_ink this
    simp [Item.ink, inkI, codeOf] at this ⊢
    rw [this]
  | .comment c :: is, h => by simp [commentsOf] at h

/-- **C43** (with comments): the output of a tree that follows the grammar consists of blanks, pieces of code and
comments; the visible characters of the pieces of code are those of the leaves of the tree, in order, up to the letter
case of tokens, keywords and literals. -/
theorem C43_code_preserved_partial (checks : Bool) (fuel : Nat) (cfg : Config) (root : Node) (out : Str) (hp : Parsed root)
    (hc : conforms root = true) (h : formatTree checks fuel cfg root = .ok out) :
    ∃ ss, out = renderSegs ss ∧ (∀ b, Seg.blank b ∈ ss → ink b = []) ∧
      Same (((codeOf (itemsOf ss)).map ink).flatten) (code root) := by
  obtain ⟨ss, e1, e2, e3, _⟩ := run_pieces hp hc h
  exact ⟨ss, e1, e2.blank, e3⟩

/-- **C43**: for a tree without comments that follows the grammar, the output without white space consists of the
characters of the leaves of the tree, in order: no token is added, dropped, duplicated or reordered, and only the letter
case of tokens, keywords and literals may differ. -/
theorem C43_tokens_preserved_partial (checks : Bool) (fuel : Nat) (cfg : Config) (root : Node) (out : Str) (hp : Parsed root)
    (hc : conforms root = true) (hx : root.extras = []) (h : formatTree checks fuel cfg root = .ok out) :
    Same (ink out) (code root) := by
  obtain ⟨ss, e1, e2, e3, e4⟩ := run_pieces hp hc h
  rw [hx] at e4
  rw [e1, ink_renderSegs ss e2.blank, inks_eq_ink (by simpa using e4)]
  exact e3

/-- **C43** (against the source text): if the leaves of the tree spell the source up to white space, then output and
source without white space are equal up to letter case. -/
theorem C43_source_preserved_partial (checks : Bool) (fuel : Nat) (cfg : Config) (root : Node) (src out : Str) (hp : Parsed root)
    (hc : conforms root = true) (hx : root.extras = []) (hs : (code root).map (·.2) = ink src)
    (h : formatTree checks fuel cfg root = .ok out) : fold (ink out) = fold (ink src) := by
  rw [same_fold (C43_tokens_preserved_partial checks fuel cfg root out hp hc hx h), hs]

example : (exBig [] []).extras = [] := by decide
example : formatTree true 60 ⟨80, 2⟩ (exBig [] []) =
    .ok ("public class A {\n  Integer x = y + foo(1, 'a b');\n\n  Object m() {\n    if (true)\n" ++
      "      return [SELECT Id FROM B WHERE NOT X = 7];\n  }\n}\n").toList := by decide +kernel
example : (code (exBig [] [])).map (·.2) =
    ink ("PUBLIC class A { Integer x = y + foo(1, 'a b'); Object m() { if (True) return [select Id FROM B WHERE " ++
      "NOT X = 7]; } }").toList := by decide +kernel
/-- Letter case of names matters. -/
example : ¬ Same "a".toList (code (exLeaf "identifier" "A" 0)) ∧ Same "CLASS".toList (code (exTok 0 "class" 0)) := by
  constructor
  · intro h; exact absurd h.1 (by decide)
  · exact ⟨.inr ⟨rfl, rfl⟩, .inr ⟨rfl, rfl⟩, .inr ⟨rfl, rfl⟩, .inr ⟨rfl, rfl⟩, .inr ⟨rfl, rfl⟩, trivial⟩

/-! ### C19 -/

/-- **C19** for trees that follow the grammar (in which no comment stands next to the type of a `WITH` clause, see
`C19_comment_printed_twice`): in a successful run every comment is printed exactly once.  Missing for the full statement:
it is false without the restriction. -/
theorem C19_exactly_once_partial (checks : Bool) (fuel : Nat) (cfg : Config) (root : Node) (out : Str) (hp : Parsed root)
    (hc : conforms root = true) (h : formatTree checks fuel cfg root = .ok out) :
    ∃ ss, out = renderSegs ss ∧ (∀ b, Seg.blank b ∈ ss → ink b = []) ∧
      (commentsOf (itemsOf ss)).Perm (root.extras.map Occ.comment) ∧
      ∀ o ∈ root.extras, (commentsOf (itemsOf ss)).count o.comment = 1 := by
  obtain ⟨ss, e1, e2, _, e4⟩ := run_pieces hp hc h
  refine ⟨ss, e1, e2.blank, e4, fun o ho => ?_⟩
  have hnd : (root.extras.map Occ.comment).Nodup := by
    have h := hp.commentIds
    have e : (root.extras.map (fun o => o.node.id)) = (root.extras.map Occ.comment).map (·.id) := by simp [Occ.comment]
    rw [e] at h
    exact nodup_of_map _ h
  rw [e4.count_eq]
  have hm : o.comment ∈ root.extras.map Occ.comment := List.mem_map.2 ⟨o, ho, rfl⟩
  have h1 := List.nodup_iff_count.1 hnd o.comment
  have h2 := List.count_pos_iff.2 hm
  omega

example : exBigC.extras.map (fun o => String.ofList o.node.text) = ["/* k */", "// 1", "// 2"] := by decide
example : formatTree true 60 ⟨80, 2⟩ exBigC =
    .ok ("public class A /* k */ {\n  // 1\n  // 2\n  Integer x = y + foo(1, 'a b');\n\n  Object m() {\n" ++
      "    if (true)\n      return [SELECT Id FROM B WHERE NOT X = 7];\n  }\n}\n").toList := by decide +kernel

/-! ### C49, C15, C42: how a run can end -/

/-- **C49**: formatting a tree that follows the grammar either succeeds or ends in one of four ways: the stack is not deep
enough for the tree, a row number underflows in a build with overflow checks, the indent size is 0, or a comment would
be lost. -/
theorem C49_only_these_failures (checks : Bool) (fuel : Nat) (cfg : Config) (root : Node) (hp : Parsed root)
    (hc : conforms root = true) (he : root.hasError = false)
    (e : Panic) (h : formatTree checks fuel cfg root = .error e) :
    (e = .stackOverflow ∧ fuel ≤ 8 * depth root + 2) ∨ (e = .arithmetic ∧ checks = true) ∨
      (e = .indentZero ∧ cfg.indentSize = 0) ∨ (e = .erasedComment ∧ root.extras ≠ []) := by
  have := run_total (checks := checks) (fuel := fuel) (cfg := cfg) hp hc he
  rw [h] at this
  exact this

/-- **C49**: the release build formats every tree that follows the grammar and has no comments, for every width and every
positive indent size, given a stack for `8 * depth + 3` nested calls. -/
theorem C49_comment_free_succeeds (fuel : Nat) (cfg : Config) (root : Node) (hp : Parsed root)
    (hc : conforms root = true) (he : root.hasError = false) (hx : root.extras = []) (hk : cfg.indentSize ≠ 0)
    (hf : 8 * depth root + 2 < fuel) : ∃ out, formatTree false fuel cfg root = .ok out ∧ Same (ink out) (code root) := by
  cases h : formatTree false fuel cfg root with
  | ok out => exact ⟨out, rfl, C43_tokens_preserved_partial false fuel cfg root out hp hc hx h⟩
  | error e =>
    rcases C49_only_these_failures false fuel cfg root hp hc he e h with h | h | h | h
    · omega
    · cases h.2
    · exact absurd h.2 hk
    · exact absurd hx h.2

example : (exBig [] []).hasError = false ∧ 8 * depth (exBig [] []) + 2 < 150 := by decide

/-- **C15** (the consequence for the formatter): no tree that follows the grammar makes the formatter die because a
node has no comment bucket. -/
theorem C15_no_missing_bucket (checks : Bool) (fuel : Nat) (cfg : Config) (root : Node) (hp : Parsed root)
    (hc : conforms root = true) : formatTree checks fuel cfg root ≠ .error .missingBucket := by
  intro h
  have herr : root.hasError = false := by
    cases e : root.hasError with
    | false => rfl
    | true =>
      unfold formatTree checkParsed at h
      rw [e] at h
      simp only [if_true] at h
      split at h
      · rename_i e' he'
        split at he'
        · split at he' <;> cases he' <;> cases h
        · cases he'; cases h
      · rename_i r he'
        split at he'
        · split at he' <;> cases he'
        · cases he'
  rcases C49_only_these_failures checks fuel cfg root hp hc herr _ h with h | h | h | h <;> cases h.1

/-- **C42**: for a tree that follows the grammar, in which a condition is a comparison or a connective of conditions, the
construction terminates: a stack deep enough for the tree does not overflow. -/
theorem C42_conditions_terminate (checks : Bool) (fuel : Nat) (cfg : Config) (root : Node) (hp : Parsed root)
    (hc : conforms root = true) (he : root.hasError = false)
    (hf : 8 * depth root + 2 < fuel) : formatTree checks fuel cfg root ≠ .error .stackOverflow := by
  intro h
  rcases C49_only_these_failures checks fuel cfg root hp hc he _ h with h | h | h | h
  · omega
  · cases h.1
  · cases h.1
  · cases h.1

/-- **C42 is false for other nodes**: on a node of any kind that is neither a comparison nor a connective the constructors
of conditions call each other until the stack is exhausted, however deep it is. -/
theorem C42_other_kinds_never_terminate (cfg : Cfg) (l : Loc)
    (hk : l.kind ∉ ["and_expression", "or_expression", "not_expression", "comparison_expression"]) :
    ∀ fuel, Prog.new cfg fuel .booleanExpression l = .error .stackOverflow ∧
      Prog.new cfg fuel .conditionExpression l = .error .stackOverflow
  | 0 => ⟨rfl, rfl⟩
  | fuel + 1 => by
    simp only [List.mem_cons, List.not_mem_nil, or_false, not_or] at hk
    obtain ⟨h1, h2⟩ := C42_other_kinds_never_terminate cfg l (by simp [hk]) fuel
    constructor
    · show Prog.New.booleanExpression (Prog.new cfg fuel) l = _
      unfold Prog.New.booleanExpression
      rw [if_neg hk.1, if_neg hk.2.1, if_neg hk.2.2.1, if_neg hk.2.2.2]
      exact h2
    · show Prog.New.conditionExpression (Prog.new cfg fuel) none l = _
      unfold Prog.New.conditionExpression
      rw [if_neg hk.2.2.2, h1]
      rfl

example : (Loc.ofRoot (exLeaf "identifier" "x" 0)).kind ∉
    ["and_expression", "or_expression", "not_expression", "comparison_expression"] := by decide

end Afmt.Gram
