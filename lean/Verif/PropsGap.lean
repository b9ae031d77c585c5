import Verif.Gap.Text
import Verif.Gap.Spec
import Verif.PropsTrail
import Verif.PropsAgain

/-!
# C61: white space around operators, commas, semicolons and brackets

Specification: `spaced` (Gap/Scan.lean) reads a text from left to right and says where white space must be and where it must
not be.  The theorems `spaced_*` of Gap/Spec.lean say what that means for the characters at every position of the text,
without the reader.  `apart` (Gap/Text.lean) says of the printed words of the tree that they can be read by themselves.
-/

namespace Afmt.Gap

/-- Words of letters, digits and dots can stand everywhere. -/
theorem fits_word (t : Bool) (pk : String) (field : Option String) (kind : String) (s : Str) (hs : s ≠ [])
    (h : ∀ c ∈ s, cc c = .other ∨ cc c = .dot) : fitsText t pk field kind s = true := by
  have first : ∀ c, (cc c = .other ∨ cc c = .dot) → ∀ x : Sc, (St.X.mem x = true ∨ St.W.mem x = true ∨ t = true ∧ St.T.mem x = true) →
      step t x c = some .N := by
    intro c hc x hx
    rcases hc with hc | hc <;> cases x with
      | P w | D w => simp only [step, hc, visible, fresh]
      | E w =>
        cases w
        · rcases hx with h | h | ⟨h, -⟩
          · cases h
          · cases h
          · subst h; simp [step, hc, visible, fresh]
        · rcases hx with h | h | ⟨-, h⟩ <;> cases h
      | N | W | L | O => simp only [step, hc, visible, fresh]
      | Q w => rcases hx with h | h | ⟨-, h⟩ <;> cases h
      | _ => rcases hx with h | h | ⟨-, h⟩ <;> cases h
  have rest : ∀ s : Str, (∀ c ∈ s, cc c = .other ∨ cc c = .dot) → scan t .N s = some .N := by
    intro s
    induction s with
    | nil => intro _; rfl
    | cons c s ih =>
      intro h
      rw [scan, first c (h c (List.mem_cons_self ..)) .N (.inl rfl)]
      exact ih (fun d hd => h d (List.mem_cons_of_mem _ hd))
  have all : ∀ x : Sc, (St.X.mem x = true ∨ St.W.mem x = true ∨ t = true ∧ St.T.mem x = true) → scan t x s = some .N := by
    intro x hx
    cases s with
    | nil => exact absurd rfl hs
    | cons c s =>
      rw [scan, first c (h c (List.mem_cons_self ..)) x hx]
      exact rest s (fun d hd => h d (List.mem_cons_of_mem _ hd))
  have quoted : ∀ s : Str, (∀ c ∈ s, cc c = .other ∨ cc c = .dot) → scan t .I s = some .I := by
    intro s
    induction s with
    | nil => intro _; rfl
    | cons c s ih =>
      intro h
      have : step t .I c = some .I := by
        rcases h c (List.mem_cons_self ..) with hc | hc <;> simp [step, hc]
      rw [scan, this]
      exact ih (fun d hd => h d (List.mem_cons_of_mem _ hd))
  have go : ∀ a e : St, e.mem .N = true → (∀ x, a.mem x = true → St.X.mem x = true ∨ St.W.mem x = true ∨ t = true ∧ St.T.mem x = true) →
      goes t a s e = true := by
    intro a e he ha
    refine List.all_eq_true.2 (fun x _ => ?_)
    cases hx : a.mem x with
    | false => rfl
    | true => rw [all x (ha x hx)]; simpa using he
  have h1 := go .W .R rfl (fun x hx => .inr (.inl hx))
  have h2 := go .X .E rfl (fun x hx => .inl hx)
  have h3 := go .X .N rfl (fun x hx => .inl hx)
  unfold fitsText
  rw [h1, h2, h3, quoted s h]
  cases ht : t with
  | false => simp
  | true =>
    have h4 := go .T .E rfl (fun x hx => .inr (.inr ⟨ht, hx⟩))
    rw [ht] at h4
    rw [h4]; simp

end Afmt.Gap

namespace Afmt.Gram
open Gap

/-- **C61** (trees without comments): the white space of the output is where it should be, whatever the line width and
however the source text is spaced.  Operators that contain one of `= * / % & | ^`, `??` and the `?` of conditional
expressions have white space on both sides, and a `:` that is followed by white space has white space before it; there is
no white space before `,`, no blank before `;`, `)` and `]` and none after `(` and `[`.  With `t = true` trees may contain
annotations with keys and values, and a single `=` may have no white space on either side.  Missing: trees with comments
and trees outside the grammar. -/
theorem C61_spacing_partial (t checks : Bool) (depth : Nat) (cfg : Config) (root : Node) (out : Str)
    (hcl : root.Closed) (hi : root.ids.Nodup) (hf : root.field = none) (hc : conforms root = true) (hx : plain root = true)
    (ht : apart t root = true) (hu : updates root = true)
    (h : formatTree checks depth cfg root = .ok out) : spaced t out = true :=
  @format_spaced ⟨t⟩ checks depth cfg root out hcl hi hf hc hx ht hu h

/-- **C61**, for operators: an operator `op` of the output that contains one of `= * / % & | ^` and that is not inside of a
string literal is between white space. -/
theorem C61_operators_between_blanks_partial (checks : Bool) (depth : Nat) (cfg : Config) (root : Node) (a op b : Str) (d : Char)
    (hcl : root.Closed) (hi : root.ids.Nodup) (hf : root.field = none) (hc : conforms root = true) (hx : plain root = true)
    (ht : apart false root = true) (hu : updates root = true)
    (h : formatTree checks depth cfg root = .ok (a ++ (op ++ d :: b)))
    (hop : op.all (fun c => isStrong c || isWeak c) = true) (hst : op.any isStrong = true)
    (ha : ∀ c, a.getLast? = some c → (isStrong c || isWeak c || c == '?') = false) (hd : (isStrong d || isWeak d) = false)
    (ho : outside a = true) : endsGap a = true ∧ isGap d = true :=
  spaced_operator hop hst ha hd (.inl rfl) (C61_spacing_partial false checks depth cfg root _ hcl hi hf hc hx ht hu h) ho

/-- **C61**, for the `?` of conditional expressions and the `:` that goes with it. -/
theorem C61_ternary_between_blanks_partial (t checks : Bool) (depth : Nat) (cfg : Config) (root : Node) (a b : Str) (d : Char)
    (hcl : root.Closed) (hi : root.ids.Nodup) (hf : root.field = none) (hc : conforms root = true) (hx : plain root = true)
    (ht : apart t root = true) (hu : updates root = true) (ho : outside a = true) :
    (formatTree checks depth cfg root = .ok (a ++ '?' :: d :: b) → d ≠ '.' → d ≠ '?' → a.getLast? ≠ some '?' →
      endsGap a = true ∧ isGap d = true) ∧
    (formatTree checks depth cfg root = .ok (a ++ ':' :: d :: b) → isGap d = true → endsGap a = true) :=
  ⟨fun h h1 h2 h3 => spaced_quest h1 h2 h3 (C61_spacing_partial t checks depth cfg root _ hcl hi hf hc hx ht hu h) ho,
    fun h h1 => spaced_colon h1 (C61_spacing_partial t checks depth cfg root _ hcl hi hf hc hx ht hu h) ho⟩

/-- **C61**, for commas, semicolons and brackets. -/
theorem C61_no_blanks_at_brackets_partial (t checks : Bool) (depth : Nat) (cfg : Config) (root : Node) (a b : Str) (c d : Char)
    (hcl : root.Closed) (hi : root.ids.Nodup) (hf : root.field = none) (hc : conforms root = true) (hx : plain root = true)
    (ht : apart t root = true) (hu : updates root = true) (ho : outside a = true)
    (h : formatTree checks depth cfg root = .ok (a ++ c :: d :: b)) :
    (c = ',' → endsGap a = false) ∧ (c = ';' ∨ c = ')' ∨ c = ']' → endsGap a = false ∨ indented a = true) ∧
    (c = '(' ∨ c = '[' → d ≠ ' ') := by
  have hs := C61_spacing_partial t checks depth cfg root _ hcl hi hf hc hx ht hu h
  refine ⟨?_, fun hc => spaced_close hc hs ho, fun hc => spaced_open hc hs ho⟩
  rintro rfl
  exact spaced_comma hs ho

/-- The hypotheses hold for the example of C43. -/
example (w : Nat) (out : Str) (h : formatTree true 60 ⟨w, 2⟩ (exBig [] []) = .ok out) : spaced false out = true :=
  C61_spacing_partial _ _ _ _ _ _ exBig_parsed.closed (by decide +kernel) rfl exBig_conforms (by decide +kernel)
    (by decide +kernel) (by decide +kernel) h

/-- `b = a[i] += c ? d : f(e, -g) * h;` with the given texts of the two assignment operators. -/
def exSpaced (p q : String) : Node := methodOf [nd "expression_statement" [
  nd "assignment_expression" [exField "left" (idn "b"), exField "operator" (lf "assignment_operator" p), exField "right"
    (nd "assignment_expression" [
      exField "left" (nd "array_access" [exField "array" (idn "a"), tk "[", exField "index" (idn "i"), tk "]"]),
      exField "operator" (lf "assignment_operator" q), exField "right"
      (nd "ternary_expression" [exField "condition" (idn "c"), tk "?", exField "consequence" (idn "d"), tk ":",
        exField "alternative" (nd "binary_expression" [
          exField "left" (nd "method_invocation" [exField "name" (idn "f"), exField "arguments" (nd "argument_list" [tk "(", idn "e", tk ",",
            nd "unary_expression" [exField "operator" (tk "-"), exField "operand" (idn "g")], tk ")"])]),
          exField "operator" (tk "*"), exField "right" (idn "h")])])])], tk ";"]]

example : formatTree true 60 ⟨80, 2⟩ (exSpaced "=" "+=") =
    .ok "class A {\n  void m() {\n    b = a[i] += c ? d : f(e, -g) * h;\n  }\n}\n".toList := by decide +kernel
/-- The hypotheses hold for it; the blanks around the operators are not part of the tree. -/
example (w : Nat) (out : Str) (h : formatTree true 60 ⟨w, 2⟩ (exSpaced "=" "+=") = .ok out) : spaced false out = true :=
  C61_spacing_partial _ _ _ _ _ _ (closedB_iff _ (by decide)) (by decide) (by decide) (by decide +kernel) (by decide)
    (by decide +kernel) (by decide +kernel) h

/-- What `spaced` rejects. -/
example : ["a= b;", "a =b;", "a=b;", "f(a , b)", "f( a)", "f(a )", "a ;", "a[ 0]", "b ? c: d", "b? c : d", "b ?c : d", "a*b",
    "a <=b", "a+= b", "a ??b", "a?? b"].all (fun s => !spaced false s.toList) = true := by decide +kernel
/-- What `spaced` accepts. -/
example : ["a = b;", "f(a, b)", "f(\n  a\n)", "a[0]", "b ? c : d", "a * b", "a\n  <= b", "a += -b", "a ?? b", "a?.b", "i++;", "x = 'a=b ,c';",
    "List<A<B>> c", "when 1, 2 {", "a::b"].all (fun s => spaced false s.toList) = true := by decide +kernel
example : spaced true "@A(b=c d='x')".toList = true ∧ spaced false "@A(b=c)".toList = false ∧ spaced true "a= b".toList = false := by
  decide +kernel

/-- `if (b) { f(); } else ;` -/
def exElseEmpty : Node := methodOf [nd "if_statement" [tk "if",
  exField "condition" (nd "parenthesized_expression" [tk "(", idn "b", tk ")"]),
  exField "consequence" (nd "block" [tk "{", exCallStmt, tk "}"]), tk "else", exField "alternative" (tk ";")]]

/-- **C61 is false for an empty alternative**: its semicolon is printed twice, the second
time with a blank before it (src/data_model.rs 1354-1390). -/
theorem C61_empty_alternative_apart : ∃ out, formatTree true 60 ⟨80, 2⟩ exElseEmpty = .ok out ∧ spaced true out = false ∧
    Parsed exElseEmpty ∧ plain exElseEmpty = true ∧ updates exElseEmpty = true := by
  refine ⟨"class A {\n  void m() {\n    if (b) {\n      f();\n    } else; ;\n  }\n}\n".toList, ?_, ?_,
    ⟨closedB_iff _ (by decide), by decide, by decide⟩, ?_, ?_⟩ <;> decide +kernel

/-- **C61 is false for trees with comments**: there may be a blank between a block comment and the comma behind it
(`handle_post_comments`, src/utility.rs 446-474). -/
theorem C61_comment_before_comma : formatTree true 60 ⟨80, 2⟩ (exComma exCommaSource) = .ok exCommaOut ∧
    (∃ a b, exCommaOut = a ++ ' ' :: ',' :: b) ∧ Parsed (exComma exCommaSource) ∧ conforms (exComma exCommaSource) = true ∧
    updates (exComma exCommaSource) = true := by
  refine ⟨?_, ⟨"enum E {\n  A /* c */".toList, "\n  B\n}\n".toList, ?_⟩, ⟨closedB_iff _ ?_, ?_, ?_⟩, ?_, ?_⟩ <;> decide +kernel

end Afmt.Gram
