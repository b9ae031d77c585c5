import Verif.PropsTokens
import Verif.Glue

/-!
# Properties C44 and C45: tokens that are lost, changed or glued together

The properties are false.  Every counterexample is a whole file whose formatting succeeds; `Changes` states what is in the
source, what is printed, and that the two differ in more than white space and letter case.
-/

namespace Afmt.Gram
open Prog New

/-- The tree is the tree of the source (up to white space), without errors and comments, it is formatted as `out`, and
the output differs from the source in more than white space and letter case. -/
structure Changes (root : Node) (src out : String) : Prop where
  parsed : Parsed root
  noError : root.hasError = false
  noComments : root.extras = []
  source : (code root).map (·.2) = ink src.toList
  formats : formatTree true 60 ⟨80, 2⟩ root = .ok out.toList
  differs : fold (ink out.toList) ≠ fold (ink src.toList)

/-- A token. -/
def tk (s : String) : Node := exTok 0 s 1
/-- A leaf. -/
def lf (k s : String) : Node := exLeaf k s 1
/-- An identifier. -/
def idn (s : String) : Node := exLeaf "identifier" s 1
/-- A node. -/
def nd (k : String) (cs : List Node) : Node := exNode 0 k 1 1 "" cs
/-- `class A { ... }`. -/
def classOf (mods ms : List Node) : Node := (numbered 1 (exNode 0 "parser_output" 0 1 "" [
  nd "class_declaration" (mods ++ [tk "class", exField "name" (idn "A"), exField "body" (nd "class_body" ([tk "{"] ++ ms ++ [tk "}"]))])])).1
/-- `class A { void m() { ... } }`. -/
def methodOf (ss : List Node) : Node := classOf [] [nd "method_declaration" [
  exField "type" (lf "void_type" "void"), exField "name" (idn "m"),
  exField "parameters" (nd "formal_parameters" [tk "(", tk ")"]),
  exField "body" (nd "block" ([tk "{"] ++ ss ++ [tk "}"]))]]

/-- `f()` -/
def exCall : Node := nd "method_invocation" [exField "name" (idn "f"), exField "arguments" (nd "argument_list" [tk "(", tk ")"])]
/-- `f();` -/
def exCallStmt : Node := nd "expression_statement" [exCall, tk ";"]
/-- `modifiers` with one modifier. -/
def exMods (k : String) : Node := nd "modifiers" [nd "modifier" [lf k k]]

/-! ### C44 -/

/-- A node inside another one, not below a comment. -/
inductive Inside (n : Node) : Node → Prop
  | self : Inside n n
  | child {m c : Node} : m.extra = false → c ∈ m.children → Inside n c → Inside n m

theorem mem_codes {c : Node} : ∀ {cs : List Node}, c ∈ cs → ∃ a b, codes cs = a ++ code c ++ b
  | d :: cs, h => by
    rw [codes]
    rcases List.mem_cons.1 h with rfl | h
    · exact ⟨[], codes cs, by simp⟩
    · obtain ⟨a, b, e⟩ := mem_codes h
      exact ⟨code d ++ a, b, by rw [e]; simp [List.append_assoc]⟩

theorem inside_code {n root : Node} (h : Inside n root) : ∃ a b, code root = a ++ code n ++ b := by
  induction h with
  | self => exact ⟨[], [], by simp⟩
  | @child m c he hc _ ih =>
    obtain ⟨a, b, e⟩ := ih
    obtain ⟨id, kind, named, extra, err, field, sr, er, sb, eb, text, children⟩ := m
    simp only at he hc
    obtain ⟨a', b', e'⟩ := mem_codes hc
    refine ⟨a' ++ a, b ++ b', ?_⟩
    cases children with
    | nil => simp at hc
    | cons d ds =>
      rw [code.eq_def]
      simp only [he, Bool.false_eq_true, if_false]
      rw [codes] at e'
      rw [e', e]
      simp [List.append_assoc]

theorem same_split : ∀ {k k' : List (Bool × Char)} {s : Str}, Same s (k ++ k') → ∃ a b, s = a ++ b ∧ Same a k ∧ Same b k'
  | [], k', s, h => ⟨[], s, rfl, trivial, h⟩
  | x :: k, k', [], h => h.elim
  | x :: k, k', c :: s, h => by
    rw [List.cons_append, Same] at h
    obtain ⟨a, b, e, h1, h2⟩ := same_split h.2
    exact ⟨c :: a, b, by rw [e]; rfl, by rw [Same]; exact ⟨h.1, h1⟩, h2⟩

/-- **C44** for the nodes named in the property, in trees that follow the grammar (whose productions leave out exactly what
is lost): all visible characters of the node, from its first to its last token, are printed, together and in
order, up to the letter case of tokens and keywords.  Missing for the full statement: it is false for the constructs
in the theorems below. -/
theorem C44_otherwise_printed_partial (checks : Bool) (fuel : Nat) (cfg : Config) (root n : Node) (out : Str) (hp : Parsed root)
    (hc : conforms root = true) (h : formatTree checks fuel cfg root = .ok out) (hi : Inside n root)
    (_hk : n.kind ∈ ["enhanced_for_statement", "variable_declarator", "method_declaration", "soql_query_body", "annotation"]) :
    ∃ ss, out = renderSegs ss ∧ (∀ b, Seg.blank b ∈ ss → ink b = []) ∧
      ∃ a s b, ((codeOf (itemsOf ss)).map ink).flatten = a ++ s ++ b ∧ Same s (code n) := by
  obtain ⟨ss, e1, e2, e3⟩ := C43_code_preserved_partial checks fuel cfg root out hp hc h
  obtain ⟨a, b, e⟩ := inside_code hi
  rw [e] at e3
  obtain ⟨x, z, h1, h2, _⟩ := same_split e3
  obtain ⟨x, y, h3, _, h4⟩ := same_split h2
  exact ⟨ss, e1, e2, x, y, z, by rw [h1, h3], h4⟩

/-- `for (A a : b) f();` -/
def exFor : Node := methodOf [nd "enhanced_for_statement" [tk "for", tk "(",
  exField "type" (lf "type_identifier" "A"), exField "name" (idn "a"), tk ":", exField "value" (idn "b"), tk ")",
  exField "body" exCallStmt]]

example : Parsed exFor := ⟨closedB_iff _ (by decide), by decide, by decide⟩
example : conforms exFor = true := by decide +kernel
example : formatTree true 60 ⟨80, 2⟩ exFor = .ok "class A {\n  void m() {\n    for (A a : b) f();\n  }\n}\n".toList := by decide +kernel
example : ∃ n, Inside n exFor ∧ n.kind = "enhanced_for_statement" :=
  ⟨_, .child rfl (.head _) (.child rfl (.tail _ (.tail _ (.head _))) (.child rfl (.tail _ (.head _)) (.child rfl
    (.tail _ (.tail _ (.tail _ (.head _)))) (.child rfl (.tail _ (.head _)) .self)))), rfl⟩

/-- `for (final A a : b) f();` -/
def exForFinal : Node := methodOf [nd "enhanced_for_statement" [tk "for", tk "(", exMods "final",
  exField "type" (lf "type_identifier" "A"), exField "name" (idn "a"), tk ":", exField "value" (idn "b"), tk ")",
  exField "body" exCallStmt]]

/-- **C44 is false for enhanced-for loops**: modifiers of the variable are dropped. -/
theorem C44_enhanced_for_modifiers_lost : Changes exForFinal "class A { void m() { for (final A a : b) f(); } }"
    "class A {\n  void m() {\n    for (A a : b) f();\n  }\n}\n" :=
  ⟨⟨closedB_iff _ (by decide), by decide, by decide⟩, by decide, by decide, by decide +kernel, by decide +kernel, by decide +kernel⟩

/-- `Integer x[];` -/
def exDimField : Node := classOf [] [nd "field_declaration" [exField "type" (lf "type_identifier" "Integer"),
  exField "declarator" (nd "variable_declarator" [exField "name" (idn "x"),
    exField "dimensions" (nd "dimensions" [tk "[", tk "]"])]), tk ";"]]

/-- **C44 is false for array-typed declarators**: the dimensions are dropped, which changes the type. -/
theorem C44_declarator_dimensions_lost : Changes exDimField "class A { Integer x[]; }"
    "class A {\n  Integer x;\n}\n" :=
  ⟨⟨closedB_iff _ (by decide), by decide, by decide⟩, by decide, by decide, by decide +kernel, by decide +kernel, by decide +kernel⟩

/-- `Integer m()[] {}` -/
def exDimMethod : Node := classOf [] [nd "method_declaration" [
  exField "type" (lf "type_identifier" "Integer"), exField "name" (idn "m"),
  exField "parameters" (nd "formal_parameters" [tk "(", tk ")"]), exField "dimensions" (nd "dimensions" [tk "[", tk "]"]),
  exField "body" (nd "block" [tk "{", tk "}"])]]

/-- **C44 is false for methods with dimensions** behind the parameters: they are dropped. -/
theorem C44_method_dimensions_lost : Changes exDimMethod "class A { Integer m()[] { } }"
    "class A {\n  Integer m() {\n  }\n}\n" :=
  ⟨⟨closedB_iff _ (by decide), by decide, by decide⟩, by decide, by decide, by decide +kernel, by decide +kernel, by decide +kernel⟩

/-- `@Foo() class A {}` -/
def exAnnot : Node := classOf [nd "modifiers" [nd "annotation" [tk "@", exField "name" (idn "Foo"),
  exField "arguments" (nd "annotation_argument_list" [tk "(", tk ")"])]]] []

/-- **C44 is false for annotations without arguments**: the parentheses are dropped. -/
theorem C44_annotation_parentheses_lost : Changes exAnnot "@Foo() class A { }"
    "@Foo\nclass A {\n}\n" :=
  ⟨⟨closedB_iff _ (by decide), by decide, by decide⟩, by decide, by decide, by decide +kernel, by decide +kernel, by decide +kernel⟩

/-- `SELECT Id FROM B` and further clauses. -/
def exQuery (more : List Node) : Node := methodOf [nd "return_statement" [tk "return", nd "query_expression" [tk "[",
  nd "soql_query_body" ([exField "select_clause" (nd "select_clause" [tk "SELECT", nd "field_identifier" [idn "Id"]]),
    exField "from_clause" (nd "from_clause" [tk "FROM", nd "storage_identifier" [idn "B"]])] ++ more), tk "]"], tk ";"]]
/-- `... USING SCOPE mine` -/
def exUsing : Node := exQuery [exField "using_clause" (nd "using_clause" [tk "USING", tk "SCOPE", lf "using_scope_type" "mine"])]

/-- **C44 is false for SOQL queries**: `SoqlQueryBody` never looks at a `USING SCOPE` clause, so the query selects more. -/
theorem C44_query_scope_lost : Changes exUsing "class A { void m() { return [SELECT Id FROM B USING SCOPE mine]; } }"
    "class A {\n  void m() {\n    return [SELECT Id FROM B];\n  }\n}\n" :=
  ⟨⟨closedB_iff _ (by decide), by decide, by decide⟩, by decide, by decide, by decide +kernel, by decide +kernel, by decide +kernel⟩

/-- `... UPDATE TRACKING` -/
def exTracking : Node := exQuery [exField "update_clause" (nd "update_clause" [tk "UPDATE", lf "update_type" "TRACKING"])]

/-- **C44 is false for SOQL queries**: an `UPDATE` clause is dropped. -/
theorem C44_query_update_lost : Changes exTracking "class A { void m() { return [SELECT Id FROM B UPDATE TRACKING]; } }"
    "class A {\n  void m() {\n    return [SELECT Id FROM B];\n  }\n}\n" :=
  ⟨⟨closedB_iff _ (by decide), by decide, by decide⟩, by decide, by decide, by decide +kernel, by decide +kernel, by decide +kernel⟩

/-! ### C43: other constructs outside Gram/Grammar.lean -/

/-- `x++` -/
def exUpd (s : String) : Node := nd "update_expression" [exField "operand" (idn s), exField "operator" (tk "++")]
/-- `for (;; i++, j++) f();` -/
def exForUpdates : Node := methodOf [nd "for_statement" [tk "for", tk "(", tk ";", tk ";", exField "update" (exUpd "i"), tk ",",
  exField "update" (exUpd "j"), tk ")", exField "body" exCallStmt]]

/-- **C43 is false for `for` loops with several updates**: all but the first are dropped, and the comma makes the output invalid. -/
theorem C43_for_updates_lost : Changes exForUpdates "class A { void m() { for (;; i++, j++) f(); } }"
    "class A {\n  void m() {\n    for (;; i++,) f();\n  }\n}\n" :=
  ⟨⟨closedB_iff _ (by decide), by decide, by decide⟩, by decide, by decide, by decide +kernel, by decide +kernel, by decide +kernel⟩

/-- `if (b);` -/
def exIfEmpty : Node := methodOf [nd "if_statement" [tk "if", exField "condition" (nd "parenthesized_expression" [tk "(", idn "b", tk ")"]),
  exField "consequence" (tk ";")]]

/-- **C43 is false for an empty statement after `if`**: a second semicolon is printed. -/
theorem C43_empty_consequence_doubled : Changes exIfEmpty "class A { void m() { if (b); } }"
    "class A {\n  void m() {\n    if (b);\n      ;\n  }\n}\n" :=
  ⟨⟨closedB_iff _ (by decide), by decide, by decide⟩, by decide, by decide, by decide +kernel, by decide +kernel, by decide +kernel⟩

/-- `private @Foo class A {}` -/
def exModOrder : Node := classOf [nd "modifiers" [nd "modifier" [lf "private" "private"],
   nd "annotation" [tk "@", exField "name" (idn "Foo")]]] []

/-- **C43 is false for annotations behind modifiers**: they are moved to the front. -/
theorem C43_modifiers_reordered : Changes exModOrder "private @Foo class A { }"
    "@Foo\nprivate class A {\n}\n" :=
  ⟨⟨closedB_iff _ (by decide), by decide, by decide⟩, by decide, by decide, by decide +kernel, by decide +kernel, by decide +kernel⟩

/-- `x.super();` -/
def exObjSuper : Node := classOf [] [nd "constructor_declaration" [exField "name" (idn "A"),
  exField "parameters" (nd "formal_parameters" [tk "(", tk ")"]), exField "body" (nd "constructor_body" [tk "{",
    nd "explicit_constructor_invocation" [exField "object" (idn "x"), tk ".", exField "constructor" (lf "super" "super"),
      exField "arguments" (nd "argument_list" [tk "(", tk ")"]), tk ";"], tk "}"])]]

/-- **C43 is false for a constructor call on an object**: the dot is dropped, object and keyword become one name. -/
theorem C43_qualified_super_dot_lost : Changes exObjSuper "class A { A() { x.super(); } }"
    "class A {\n  A() {\n    xsuper();\n  }\n}\n" :=
  ⟨⟨closedB_iff _ (by decide), by decide, by decide⟩, by decide, by decide, by decide +kernel, by decide +kernel, by decide +kernel⟩

/-! ### C45 -/

/-- **C45**, for all nestings of unary and update expressions around a name, without comments: wherever the expression is
printed, its tokens are written one after the other without white space, and the text is read back (longest match) as
the same tokens if and only if no sign stands directly before an operator that begins with the same sign.  Missing for the
full statement: it is false for such signs, see `C45_minus_minus`. -/
theorem C45_read_back_partial (cfg : Cfg) (fuel k : Nat) (n : Nest) (l : Loc) (p : Prog) (d : Doc) (lg : List Comment) (ho : n.Ok)
    (hl : NestAt cfg.cm n l) (hn : Prog.new cfg fuel .expression l = .ok p) (hb : p.build k cfg.cm = .ok (d, lg)) :
    ∃ text, (∀ w i fl rest st, (pr w d i fl rest st).flush.out = st.flush.out ++ text) ∧ text = n.toks.flatten ∧
      (NoGlue n.toks → ∀ ts, Lexes text ts ↔ ts = n.toks) ∧ (¬ NoGlue n.toks → ¬ Lexes text n.toks) := by
  refine ⟨_, writes_nest n l fuel p d lg ho hl hn hb, rfl, ?_, ?_⟩
  · intro hg ts
    have h := (lexes_nest (nestToks ho)).2 hg
    exact ⟨fun h' => lexes_unique h' h, fun e => e ▸ h⟩
  · intro hg h
    exact hg ((lexes_nest (nestToks ho)).1 h)

/-- `a b x` with unary operators `a` and `b`. -/
def exNest (a b : String) : Node := (numbered 1 (nd "unary_expression" [exField "operator" (tk a),
  exField "operand" (nd "unary_expression" [exField "operator" (tk b), exField "operand" (idn "x")])])).1

/-- The example expressions print. -/
def exNestDoc (n : Node) : Option String :=
  match Prog.new (exCfg n) 20 .expression (Loc.ofRoot n) with
  | .ok p => match p.build 2 (exCfg n).cm with
    | .ok (d, _) => (prettyPrint 80 d).map String.ofList
    | .error _ => none
  | .error _ => none

example : exNestDoc (exNest "!" "-") = some "!-x" := by decide +kernel

theorem quiet_of {cm : CMap} {l : Loc} (h1 : (cm.get? l.id).all (fun b => b.pre.isEmpty && b.dangling.isEmpty && b.post.isEmpty) = true)
    (h2 : (l.rightSiblings.find? (fun s => !s.extra)).all (fun s => s.kind != "," && s.kind != ";") = true) : Quiet cm l := by
  refine ⟨fun b hb => ?_, fun s hs => ?_⟩
  · rw [hb] at h1; simpa [and_assoc] using h1
  · rw [hs] at h2; simpa using h2

theorem exNest_at : NestAt (exCfg (exNest "!" "-")).cm (.pre "!".toList (.pre "-".toList (.name "x".toList)))
    (Loc.ofRoot (exNest "!" "-")) :=
  ⟨quiet_of (by decide +kernel) (by decide +kernel), _, _, rfl, by decide, rfl, ⟨quiet_of (by decide +kernel) (by decide +kernel), _, _, rfl,
    by decide, rfl, ⟨by decide, quiet_of (by decide +kernel) (by decide +kernel), by decide⟩, .inl (by decide)⟩, .inl (by decide)⟩

example : (Nest.pre "!".toList (.pre "-".toList (.name "x".toList))).Ok ∧
    NoGlue (Nest.pre "!".toList (.pre "-".toList (.name "x".toList))).toks := by
  refine ⟨⟨by decide, by decide, by decide, by decide⟩, ?_, ?_, trivial⟩
  · intro h; exact absurd h.1 (by decide)
  · intro h; exact absurd h.2 (by decide)

/-- `y = - -x;` -/
def exMinus : Node := methodOf [nd "expression_statement" [nd "assignment_expression" [exField "left" (idn "y"),
  exField "operator" (lf "assignment_operator" "="), exField "right" (nd "unary_expression" [exField "operator" (tk "-"),
    exField "operand" (nd "unary_expression" [exField "operator" (tk "-"), exField "operand" (idn "x")])])], tk ";"]]

/-- **C45 is false**: `y = - -x;`, which negates twice, is printed as `y = --x;`, which is read as a decrement of `x`. -/
theorem C45_minus_minus : Parsed exMinus ∧ conforms exMinus = true ∧
    formatTree true 60 ⟨80, 2⟩ exMinus = .ok "class A {\n  void m() {\n    y = --x;\n  }\n}\n".toList ∧
    Lexes "--x;".toList ["--".toList, "x".toList, ";".toList] ∧ ¬ Lexes "--x;".toList ["-".toList, "-".toList, "x".toList, ";".toList] := by
  have h : Lexes "--x;".toList ["--".toList, "x".toList, ";".toList] := by
    refine Lexes.op (o := "--".toList) (r := "x;".toList) (by decide) ?_ (.word (w := "x".toList) (r := ";".toList) (by decide) (by decide)
      (by decide) (.op (o := ";".toList) (r := []) (by decide) ?_ .nil))
    · decide +kernel
    · decide +kernel
  exact ⟨⟨closedB_iff _ (by decide), by decide, by decide⟩, by decide +kernel, by decide +kernel, h,
    fun h' => absurd (lexes_unique h h') (by decide)⟩

end Afmt.Gram
