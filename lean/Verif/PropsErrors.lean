import Verif.PropsFormat

/-!
# Properties C29, C30, C31: sources with syntax errors
-/

namespace Afmt

/-! ### Specification: all nodes of a tree in document order -/

mutual
/-- The node and everything below it, in document order (parents before children). -/
def Node.subtree : Node → List Node
  | .mk id kind named extra err field sr er sb eb text children =>
    .mk id kind named extra err field sr er sb eb text children :: forest children
/-- The same for a list of nodes. -/
def forest : List Node → List Node
  | [] => []
  | n :: ns => n.subtree ++ forest ns
end

/-- A node below which (itself included) there is an error, but not below any of its children. -/
def Node.InnermostError (n : Node) : Prop :=
  (∃ m ∈ n.subtree, m.err = true) ∧ ∀ c ∈ n.children, ∀ m ∈ c.subtree, m.err = false

/-! ### Lemmas -/

mutual
theorem hasError_iff (n : Node) : n.hasError = true ↔ ∃ m ∈ n.subtree, m.err = true := by
  obtain ⟨id, kind, named, extra, err, field, sr, er, sb, eb, text, children⟩ := n
  simp only [Node.hasError, Node.subtree, List.mem_cons, Bool.or_eq_true, kidsHaveError_iff children, exists_eq_or_imp]
theorem kidsHaveError_iff (ns : List Node) : kidsHaveError ns = true ↔ ∃ m ∈ forest ns, m.err = true := by
  cases ns with
  | nil => simp [kidsHaveError, forest]
  | cons n ns =>
    simp only [kidsHaveError, forest, Bool.or_eq_true, hasError_iff n, kidsHaveError_iff ns, List.mem_append]
    constructor
    · rintro (⟨m, h, e⟩ | ⟨m, h, e⟩)
      · exact ⟨m, .inl h, e⟩
      · exact ⟨m, .inr h, e⟩
    · rintro ⟨m, h | h, e⟩
      · exact .inl ⟨m, h, e⟩
      · exact .inr ⟨m, h, e⟩
end

theorem kidsHaveError_any (ns : List Node) : kidsHaveError ns = ns.any (·.hasError) := by
  induction ns with
  | nil => rfl
  | cons n ns ih => simp [kidsHaveError, ih]

/-- Decidable form of `InnermostError`. -/
def Node.innermost (n : Node) : Bool := n.hasError && !kidsHaveError n.children

theorem innermost_iff (n : Node) : n.innermost = true ↔ n.InnermostError := by
  rw [Node.innermost, Bool.and_eq_true, hasError_iff, Node.InnermostError, Bool.not_eq_true', kidsHaveError_any,
    List.any_eq_false]
  refine and_congr_right fun _ => forall_congr' fun c => imp_congr_right fun _ => ?_
  rw [hasError_iff]
  simp

theorem getLast?_append {α : Type} (a b : List α) :
    (a ++ b).getLast? = (match b.getLast? with | some x => some x | none => a.getLast?) := by
  rw [List.getLast?_append]
  cases b.getLast? <;> rfl

mutual
theorem innermost_nil (n : Node) (h : n.hasError = false) : n.subtree.filter (·.innermost) = [] := by
  obtain ⟨id, kind, named, extra, err, field, sr, er, sb, eb, text, children⟩ := n
  have h' := h
  simp only [Node.hasError, Bool.or_eq_false_iff] at h'
  simp only [Node.subtree]
  rw [List.filter_cons, innermost_nils children h'.2]
  simp [Node.innermost, h]
theorem innermost_nils (ns : List Node) (h : kidsHaveError ns = false) : (forest ns).filter (·.innermost) = [] := by
  cases ns with
  | nil => rfl
  | cons n ns =>
    simp only [kidsHaveError, Bool.or_eq_false_iff] at h
    rw [forest, List.filter_append, innermost_nil n h.1, innermost_nils ns h.2, List.append_nil]
end

mutual
theorem findLast_spec (n : Node) : findLastErrorNode n = (n.subtree.filter (·.innermost)).getLast? := by
  obtain ⟨id, kind, named, extra, err, field, sr, er, sb, eb, text, children⟩ := n
  simp only [findLastErrorNode]
  by_cases hE : (Node.mk id kind named extra err field sr er sb eb text children).hasError = true
  · rw [hE]
    simp only [Bool.not_true, Bool.false_eq_true, if_false, Node.subtree]
    rw [findLastKids_spec children]
    by_cases hK : kidsHaveError children = true
    · rw [if_pos hK, List.filter_cons_of_neg (by simp [Node.innermost, hK])]
    · rw [if_neg hK, List.filter_cons_of_pos (by simp [Node.innermost, hK, hE]),
        innermost_nils children (by simpa using hK)]
      rfl
  · simp only [Bool.not_eq_true] at hE
    rw [hE, innermost_nil _ hE]
    rfl
theorem findLastKids_spec (ns : List Node) (acc : Option Node) : findLastErrorKids acc ns =
    if kidsHaveError ns = true then ((forest ns).filter (·.innermost)).getLast? else acc := by
  cases ns with
  | nil => simp [findLastErrorKids, kidsHaveError]
  | cons c cs =>
    rw [findLastErrorKids, findLastKids_spec cs]
    simp only [kidsHaveError, forest, List.filter_append]
    by_cases h2 : kidsHaveError cs = true
    · have hne : ((forest cs).filter (·.innermost)).getLast? ≠ none := by
        have := findLastKids_ne cs h2
        simpa using this
      simp only [h2, if_true, Bool.or_true]
      rw [getLast?_append]
      cases hg : ((forest cs).filter (·.innermost)).getLast? with
      | some x => rfl
      | none => exact absurd hg hne
    · have h2' : kidsHaveError cs = false := by simpa using h2
      simp only [h2', Bool.false_eq_true, if_false, Bool.or_false, innermost_nils cs h2', List.append_nil]
      by_cases h1 : c.hasError = true
      · simp only [h1, if_true]; exact findLast_spec c
      · simp [h1]
theorem findLastKids_ne (ns : List Node) (h : kidsHaveError ns = true) :
    (forest ns).filter (·.innermost) ≠ [] := by
  cases ns with
  | nil => simp [kidsHaveError] at h
  | cons n ns =>
    simp only [kidsHaveError, Bool.or_eq_true] at h
    rw [forest, List.filter_append]
    rcases h with h | h
    · have := findLast_ne n h
      simp only [ne_eq, List.append_eq_nil_iff, not_and]
      exact fun e => absurd e this
    · have := findLastKids_ne ns h
      simp only [ne_eq, List.append_eq_nil_iff, not_and]
      exact fun _ => this
theorem findLast_ne (n : Node) (h : n.hasError = true) : n.subtree.filter (·.innermost) ≠ [] := by
  obtain ⟨id, kind, named, extra, err, field, sr, er, sb, eb, text, children⟩ := n
  simp only [Node.subtree]
  by_cases hK : kidsHaveError children = true
  · rw [List.filter_cons_of_neg (by simp [Node.innermost, hK])]
    exact findLastKids_ne children hK
  · rw [List.filter_cons_of_pos (by simp [Node.innermost, hK, h])]
    simp
end

/-! ## C29 -/

/-- `class A` with an ERROR node inside a MISSING-free body. -/
def exError : Node := exNode 1 "parser_output" 0 1 "" [
  exNode 2 "class_declaration" 0 1 "" [
    exTok 3 "class" 0, { exNode 4 "ERROR" 0 0 "@@" [exNode 5 "identifier" 0 0 "x" []] with err := true },
    exNode 6 "class_body" 0 0 "{" [{ exTok 7 "}" 0 with err := true }]],
  exNode 8 "class_declaration" 1 1 "" []]

/-- **C29**: if any node of the tree is an error node, no text is produced. -/
theorem C29_syntax_error_never_formatted (checks : Bool) (depth : Nat) (cfg : Config) (root m : Node)
    (hm : m ∈ root.subtree) (he : m.err = true) : ∀ out, formatTree checks depth cfg root ≠ .ok out := by
  intro out
  have : root.hasError = true := (hasError_iff root).2 ⟨m, hm, he⟩
  simp only [formatTree, checkParsed, this, if_true]
  cases hf : findLastErrorNode root with
  | none => simp
  | some e => cases ht : truncateSnippet e.text <;> simp [ht]

/-- **C29** on the level of `format_one`, whatever the state of the thread: no text, and the thread locals are not
touched. -/
theorem C29_format_one (wd : World) (cfg : Config) (source : Str) (t : Tls) (m : Node)
    (hm : m ∈ (wd.parse source).subtree) (he : m.err = true) :
    (∃ e, (formatOne wd cfg source t).1 = .error e) ∧ (formatOne wd cfg source t).2 = t := by
  have : (wd.parse source).hasError = true := (hasError_iff _).2 ⟨m, hm, he⟩
  have hc : ∃ e, checkParsed (wd.parse source) = .error e := by
    simp only [checkParsed, this, if_true]
    cases hf : findLastErrorNode (wd.parse source) with
    | none => exact ⟨_, rfl⟩
    | some e => cases ht : truncateSnippet e.text <;> simp [ht]
  obtain ⟨e, hc⟩ := hc
  simp [formatOne, hc]

/-- Conversely a tree without error nodes passes the check of `parse`. -/
theorem C29_only_errors_rejected (root : Node) :
    checkParsed root = .ok root ↔ ∀ m ∈ root.subtree, m.err = false := by
  have := hasError_iff root
  constructor
  · intro h m hm
    cases hme : m.err with
    | false => rfl
    | true =>
      have h1 := this.2 ⟨m, hm, hme⟩
      simp only [checkParsed, h1, if_true] at h
      cases hf : findLastErrorNode root with
      | none => simp [hf] at h
      | some e => cases ht : truncateSnippet e.text <;> simp [hf, ht] at h
  · intro h
    have : root.hasError = false := by
      cases hb : root.hasError with
      | false => rfl
      | true => obtain ⟨m, hm, e⟩ := this.1 hb; simp [h m hm] at e
    simp [checkParsed, this]

example : ∃ m ∈ exError.subtree, m.err = true := by
  refine ⟨{ exTok 7 "}" 0 with err := true }, ?_, rfl⟩
  simp [exError, exNode, exTok, Node.subtree, forest]
example : formatTree true 100 ⟨80, 2⟩ exError = .error .parseError := by decide
example : ∀ m ∈ exClass.subtree, m.err = false := by
  simp [exClass, exNode, exTok, exComment, exField, Node.subtree, forest]

/-! ## C30 -/

/-- **C30**: `find_last_error_node` finds a node exactly if the tree has an error, and the node found is the last one in
document order among the nodes that have an error but no child with an error. -/
theorem C30_last_innermost_error (root : Node) :
    ((∃ e, findLastErrorNode root = some e) ↔ ∃ m ∈ root.subtree, m.err = true) ∧
    ∀ e, findLastErrorNode root = some e → ∃ before after, root.subtree = before ++ e :: after ∧
      e.InnermostError ∧ ∀ m ∈ after, ¬ m.InnermostError := by
  rw [findLast_spec]
  refine ⟨⟨?_, ?_⟩, ?_⟩
  · rintro ⟨e, h⟩
    rw [← hasError_iff]
    cases hb : root.hasError with
    | true => rfl
    | false => rw [innermost_nil root hb] at h; simp at h
  · intro h
    have := findLast_ne root ((hasError_iff root).2 h)
    cases hg : (root.subtree.filter (·.innermost)).getLast? with
    | some e => exact ⟨e, rfl⟩
    | none => rw [List.getLast?_eq_none_iff] at hg; exact absurd hg this
  · intro e h
    generalize root.subtree = l at h
    induction l with
    | nil => simp at h
    | cons a l ih =>
      by_cases hl : l.filter (·.innermost) = []
      · by_cases ha : a.innermost = true
        · rw [List.filter_cons_of_pos ha, hl] at h
          simp only [List.getLast?_singleton, Option.some.injEq] at h
          subst h
          refine ⟨[], l, rfl, (innermost_iff _).1 ha, fun m hm hi => ?_⟩
          rw [List.filter_eq_nil_iff] at hl
          exact hl m hm ((innermost_iff m).2 hi)
        · rw [List.filter_cons_of_neg ha, hl] at h
          simp at h
      · have : (l.filter (·.innermost)).getLast? = some e := by
          by_cases ha : a.innermost = true
          · rw [List.filter_cons_of_pos ha, List.getLast?_cons] at h
            cases hg : (l.filter (·.innermost)).getLast? with
            | none => rw [List.getLast?_eq_none_iff] at hg; exact absurd hg hl
            | some x => rw [hg] at h; simpa using h
          · rwa [List.filter_cons_of_neg ha] at h
        obtain ⟨b, c, e1, e2, e3⟩ := ih this
        exact ⟨a :: b, c, by rw [e1]; rfl, e2, e3⟩

example : (findLastErrorNode exError).map (·.id) = some 7 := by decide
example : findLastErrorNode exClass = none := by
  rw [findLast_spec, innermost_nil _ (by decide)]; rfl

/-! ## C31 -/

theorem takeBytes_some {n : Nat} {s p : Str} : takeBytes n s = some p ↔ (p <+: s ∧ byteLen p = n) := by
  induction s generalizing n p with
  | nil =>
    cases n with
    | zero =>
      simp only [takeBytes, List.prefix_nil, Option.some.injEq]
      constructor
      · rintro rfl; exact ⟨rfl, rfl⟩
      · exact fun h => h.1.symm
    | succ n =>
      simp only [takeBytes, List.prefix_nil]
      constructor
      · intro h; cases h
      · rintro ⟨rfl, h⟩; simp [byteLen] at h
  | cons c cs ih =>
    have hc := Char.utf8Size_pos c
    cases n with
    | zero =>
      simp only [takeBytes, Option.some.injEq]
      constructor
      · rintro rfl; exact ⟨List.nil_prefix, rfl⟩
      · rintro ⟨_, h⟩
        cases p with
        | nil => rfl
        | cons d p => have := Char.utf8Size_pos d; simp [byteLen] at h; omega
    | succ n =>
      simp only [takeBytes]
      constructor
      · intro h
        split at h
        · rename_i hle
          cases ht : takeBytes (n + 1 - c.utf8Size) cs with
          | none => rw [ht] at h; simp at h
          | some q =>
            rw [ht] at h
            simp only [Option.map_some, Option.some.injEq] at h
            subst h
            obtain ⟨h1, h2⟩ := ih.1 ht
            refine ⟨?_, ?_⟩
            · obtain ⟨r, rfl⟩ := h1; exact ⟨r, rfl⟩
            · simp only [byteLen, h2]; omega
        · cases h
      · rintro ⟨⟨r, hr⟩, hb⟩
        cases p with
        | nil => simp [byteLen] at hb
        | cons d q =>
          simp only [List.cons_append, List.cons.injEq] at hr
          obtain ⟨rfl, rfl⟩ := hr
          simp only [byteLen] at hb
          rw [if_pos (by omega), ih.2 ⟨⟨r, rfl⟩, by omega⟩]
          rfl

/-- **C31** (what the function does, for every text): texts of at most 80 bytes are returned unchanged; of a longer text
exactly the first 80 bytes followed by `…`, provided a character ends there; otherwise the function panics. -/
theorem C31_truncate_snippet_partial (s : Str) :
    (byteLen s ≤ 80 → truncateSnippet s = some s) ∧
    (80 < byteLen s → ∀ r, truncateSnippet s = some r ↔ ∃ p, p <+: s ∧ byteLen p = 80 ∧ r = p ++ "…".toList) := by
  refine ⟨fun h => by simp [truncateSnippet, snippetMaxLen, h], fun h r => ?_⟩
  have hn : ¬ byteLen s ≤ snippetMaxLen := by simp only [snippetMaxLen]; omega
  rw [truncateSnippet, if_neg hn, Option.map_eq_some_iff, snippetMaxLen]
  simp only [takeBytes_some]
  constructor
  · rintro ⟨p, ⟨h1, h2⟩, rfl⟩; exact ⟨p, h1, h2, rfl⟩
  · rintro ⟨p, h1, h2, rfl⟩; exact ⟨p, ⟨h1, h2⟩, rfl⟩

/-- **C31** holds for ASCII texts: a snippet is always produced. -/
theorem C31_ascii_safe (s : Str) (ha : ∀ c ∈ s, c.utf8Size = 1) : ∃ r, truncateSnippet s = some r := by
  by_cases h : byteLen s ≤ 80
  · exact ⟨_, (C31_truncate_snippet_partial s).1 h⟩
  · have hlen : ∀ l : Str, (∀ c ∈ l, c.utf8Size = 1) → byteLen l = l.length := by
      intro l
      induction l with
      | nil => intro _; rfl
      | cons c l ih => intro h; simp only [byteLen, h c (by simp), ih (fun d hd => h d (by simp [hd])),
          List.length_cons]; omega
    rw [hlen s ha] at h
    refine ⟨_, ((C31_truncate_snippet_partial s).2 (by rw [hlen s ha]; omega) _).2 ⟨s.take 80, List.take_prefix 80 s, ?_, rfl⟩⟩
    rw [hlen _ (fun c hc => ha c (List.mem_of_mem_take hc)), List.length_take]
    omega

/-- **C31 is false**: every text in which a character straddles byte 80 makes the function panic. -/
theorem C31_straddling_character_panics (p q : Str) (c : Char) (h1 : byteLen p < 80)
    (h2 : 80 < byteLen p + c.utf8Size) : truncateSnippet (p ++ c :: q) = none := by
  have hb : ∀ a b : Str, byteLen (a ++ b) = byteLen a + byteLen b := by
    intro a b
    induction a with
    | nil => simp [byteLen]
    | cons x a ih => simp only [List.cons_append, byteLen, ih]; omega
  have hlong : 80 < byteLen (p ++ c :: q) := by rw [hb]; simp only [byteLen]; omega
  cases h : truncateSnippet (p ++ c :: q) with
  | none => rfl
  | some r =>
    obtain ⟨x, hx, hx80, -⟩ := ((C31_truncate_snippet_partial _).2 hlong r).1 h
    obtain ⟨y, hy⟩ := hx
    rcases List.append_eq_append_iff.1 hy with ⟨a, e1, e2⟩ | ⟨a, e1, e2⟩
    · rw [e1, hb] at h1; omega
    · cases a with
      | nil => rw [e1, hb] at hx80; simp [byteLen] at hx80; omega
      | cons d a =>
        simp only [List.cons_append, List.cons.injEq] at e2
        obtain ⟨rfl, -⟩ := e2
        rw [e1, hb] at hx80
        simp only [byteLen] at hx80
        omega

/-- 79 letters and a two byte character. -/
example : truncateSnippet (List.replicate 79 'a' ++ 'é' :: []) = none :=
  C31_straddling_character_panics _ _ _ (by decide) (by decide)
/-- 80 letters, then a two byte character. -/
example : truncateSnippet (List.replicate 80 'a' ++ ['é']) = some (List.replicate 80 'a' ++ ['…']) := by decide

end Afmt
