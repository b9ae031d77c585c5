import Verif.PropsComments

/-!
# Members of bodies: C11

First the connection between programs (`Prog.surroundBody`, ...) and the builder (`surroundBodyMembers`, ...), then the
decision about blank lines.
-/

namespace Afmt
open Prog

/-! ### Programs and the builder -/

theorem builds_cons {k : Nat} {cm : CMap} {p : Prog} {ps : List Prog} {ds : List Doc} {l : List Comment}
    (h : Prog.builds k cm (p :: ps) = .ok (ds, l)) : ∃ d l1 ds' l2, Prog.build k cm p = .ok (d, l1) ∧
      Prog.builds k cm ps = .ok (ds', l2) ∧ ds = d :: ds' ∧ l = l1 ++ l2 := by
  rw [Prog.builds] at h
  cases h1 : Prog.build k cm p with
  | error e => rw [h1] at h; cases h
  | ok x =>
    obtain ⟨d, l1⟩ := x
    rw [h1] at h
    cases h2 : Prog.builds k cm ps with
    | error e => rw [h2] at h; cases h
    | ok y =>
      obtain ⟨ds', l2⟩ := y
      rw [h2] at h
      cases h
      exact ⟨d, l1, ds', l2, rfl, rfl, rfl, rfl⟩

theorem builds_length {k : Nat} {cm : CMap} (ps : List Prog) : ∀ {ds : List Doc} {l : List Comment},
    Prog.builds k cm ps = .ok (ds, l) → ds.length = ps.length := by
  induction ps with
  | nil => intro ds l h; rw [Prog.builds] at h; cases h; rfl
  | cons p ps ih =>
    intro ds l h
    obtain ⟨d, l1, ds', l2, _, h2, rfl, _⟩ := builds_cons h
    simp [ih h2]

/-- The members of a body as documents: what `intersperse_body_members` is given. -/
theorem builds_bodyParts {k : Nat} {cm : CMap} (ms : List (Bool × Prog)) : ∀ {ds : List Doc} {log : List Comment},
    Prog.builds k cm (bodyParts ms) = .ok (ds, log) →
    ∃ es, Prog.builds k cm (ms.map (·.2)) = .ok (es, log) ∧ ds = bodyMembersParts ((ms.map (·.1)).zip es) := by
  induction ms with
  | nil => intro ds log h; rw [bodyParts, Prog.builds] at h; cases h; exact ⟨[], rfl, rfl⟩
  | cons m ms ih =>
    intro ds log h
    obtain ⟨b, p⟩ := m
    cases ms with
    | nil =>
      rw [bodyParts] at h
      refine ⟨ds, h, ?_⟩
      have := builds_length _ h
      match ds, this with
      | [d], _ => rfl
    | cons m2 ms =>
      rw [bodyParts] at h
      · obtain ⟨d, l1, ds1, l2, h1, h2, rfl, rfl⟩ := builds_cons h
        obtain ⟨s, l3, ds2, l4, h3, h4, rfl, rfl⟩ := builds_cons h2
        obtain ⟨es, h5, rfl⟩ := ih h4
        have hs : s = (if b then emptyNewLine else nl) ∧ l3 = [] := by
          cases b <;> simp [Prog.build] at h3 <;> exact ⟨h3.1.symm, h3.2⟩
        refine ⟨d :: es, ?_, ?_⟩
        · rw [List.map_cons, Prog.builds, h1, h5, hs.2]; simp
        · have hl := builds_length _ h5
          cases es with
          | nil => simp at hl
          | cons e es => rw [hs.1]; simp [bodyMembersParts]
      · simp

/-- `surround_body_members` on programs builds `surround_body_members` of the built members. -/
theorem build_surroundBody {k : Nat} {cm : CMap} {ms : List (Bool × Prog)} {d : Doc} {log : List Comment}
    (h : Prog.build k cm (surroundBody ms) = .ok (d, log)) :
    ∃ es, Prog.builds k cm (ms.map (·.2)) = .ok (es, log) ∧
      d = surroundBodyMembers k ((ms.map (·.1)).zip es) ['{'] ['}'] := by
  cases ms with
  | nil =>
    simp [surroundBody, Prog.build, Prog.builds, t] at h
    exact ⟨[], by simp [Prog.builds, ← h.2], h.1.symm⟩
  | cons m ms =>
    simp only [surroundBody, intersperseBody, Prog.build, Prog.builds, t] at h
    cases hb : Prog.builds k cm (bodyParts (m :: ms)) with
    | error e => simp [hb] at h
    | ok x =>
      obtain ⟨ds, l⟩ := x
      simp [hb] at h
      obtain ⟨es, h1, rfl⟩ := builds_bodyParts _ hb
      have hl := builds_length _ h1
      cases es with
      | nil => simp at hl
      | cons e es =>
        refine ⟨e :: es, by rw [h1, h.2], ?_⟩
        rw [← h.1]
        rfl

/-- `intersperse_body_members` on programs. -/
theorem build_intersperseBody {k : Nat} {cm : CMap} {ms : List (Bool × Prog)} {d : Doc} {log : List Comment}
    (h : Prog.build k cm (intersperseBody ms) = .ok (d, log)) :
    ∃ es, Prog.builds k cm (ms.map (·.2)) = .ok (es, log) ∧
      d = intersperseBodyMembers ((ms.map (·.1)).zip es) := by
  cases ms with
  | nil =>
    simp [intersperseBody, Prog.build, Prog.nil] at h
    exact ⟨[], by simp [Prog.builds, ← h.2], h.1.symm⟩
  | cons m ms =>
    simp only [intersperseBody, Prog.build] at h
    cases hb : Prog.builds k cm (bodyParts (m :: ms)) with
    | error e => simp [hb] at h
    | ok x =>
      obtain ⟨ds, l⟩ := x
      simp [hb] at h
      obtain ⟨es, h1, rfl⟩ := builds_bodyParts _ hb
      have hl := builds_length _ h1
      cases es with
      | nil => simp at hl
      | cons e es =>
        refine ⟨e :: es, by rw [h1, h.2], ?_⟩
        rw [← h.1]
        rfl

/-! ### Blank lines in the source -/

/-- Specification: the source has a blank line after the node `n` — or, if comments were attached after it, after the
last of them.  `below` is the flag of that comment, explained by `C25_rows`. -/
def BlankAfter (cm : CMap) (n : Loc) : Prop :=
  match (cm.get? n.id).bind (·.post.getLast?) with
  | some c => c.meta'.hasEmptyLineBelow = true
  | none => ∃ s, n.nextNamedSibling = some s ∧ n.endRow + 1 < s.startRow

/-- The next named sibling, if there is one, does not start in the first row of the file. -/
def NotRowZero (n : Loc) : Prop := ∀ s, n.nextNamedSibling = some s → s.startRow ≠ 0

open Prog.New in
theorem hasTrailingNewline_spec (cfg : Cfg) (n : Loc) (b : Bool) (h : hasTrailingNewline cfg n = .ok b) (hr : NotRowZero n) :
    b = true ↔ BlankAfter cfg.cm n := by
  unfold hasTrailingNewline at h
  unfold BlankAfter
  cases hg : cfg.cm.get? n.id with
  | none => simp [getBucket, hg] at h
  | some bk =>
    simp only [getBucket, hg] at h
    simp only [Option.bind_some]
    cases hp : bk.post.getLast? with
    | some c => simp [hp] at h; simp [h]
    | none =>
      simp only [hp] at h
      cases hn : n.nextNamedSibling with
      | none => simp [hn] at h; simp [← h]
      | some s =>
        have hs := hr s hn
        simp [hn, hs] at h
        rw [← h]
        simp
        omega

open Prog.New in
/-- **C11** (partial: false without `NotRowZero`, see `C11_row_zero_false`): members of a body get a blank line in between
exactly where the source has one. -/
theorem C11_blank_lines_partial (cfg : Cfg) (rec : Rec) (c : Cls) (ns : List Loc) (ms : List (Bool × Prog))
    (h : mapR (bodyMember cfg rec c) ns = .ok ms) (hr : ∀ n ∈ ns, NotRowZero n) :
    ms.length = ns.length ∧
    ∀ (i : Nat) (n : Loc) (m : Bool × Prog), ns[i]? = some n → ms[i]? = some m → (m.1 = true ↔ BlankAfter cfg.cm n) := by
  induction ns generalizing ms with
  | nil => rw [mapR] at h; cases h; simp
  | cons a ns ih =>
    rw [mapR] at h
    cases h1 : bodyMember cfg rec c a with
    | error e => simp [h1] at h
    | ok m1 =>
      cases h2 : mapR (bodyMember cfg rec c) ns with
      | error e => simp [h1, h2] at h
      | ok ms1 =>
        simp [h1, h2] at h
        subst h
        obtain ⟨hl, hi⟩ := ih ms1 h2 (fun n hn => hr n (by simp [hn]))
        refine ⟨by simp [hl], fun i n m hn hm => ?_⟩
        cases i with
        | zero =>
          simp at hn hm; subst hn; subst hm
          unfold bodyMember at h1
          cases h3 : rec c a with
          | error e => simp [h3] at h1
          | ok p =>
            cases h4 : hasTrailingNewline cfg a with
            | error e => simp [h3, h4] at h1
            | ok b =>
              simp [h3, h4] at h1
              subst h1
              exact hasTrailingNewline_spec cfg a b h4 (hr a (by simp))
        | succ i => exact hi i n m (by simpa using hn) (by simpa using hm)

theorem groupOnly_linesDoc (ls : List Str) : Doc.GroupOnlys (linesDoc ls) := by
  induction ls with
  | nil => simp [linesDoc, Doc.GroupOnlys]
  | cons l ls ih =>
    cases ls with
    | nil => simp [linesDoc, Doc.GroupOnlys, txt, Doc.GroupOnly]
    | cons m ms =>
      rw [linesDoc]
      · simp only [Doc.GroupOnlys, txt, Doc.GroupOnly, nl, true_and]; exact ih
      · simp

theorem groupOnly_comment (c : Comment) : c.build.GroupOnly := by
  unfold Comment.build
  cases c.type with
  | line => simp [Doc.GroupOnly, Doc.GroupOnlys, txt, nl]
  | block => simpa [Doc.GroupOnly] using groupOnly_linesDoc _

mutual
theorem groupOnly_of_items {d : Doc} {is : List Item} (h : Doc.Items d is) : d.GroupOnly := by
  cases h with
  | text | newline | newlineWithNoIndent | forceBreak | softline | maybeline => simp [Doc.GroupOnly]
  | comment c hc => exact groupOnly_comment c
  | flat h => simpa [Doc.GroupOnly] using groupOnly_of_items h
  | indent h => simpa [Doc.GroupOnly] using groupOnly_of_items h
  | dedent h => simpa [Doc.GroupOnly] using groupOnly_of_items h
  | concat h => simpa [Doc.GroupOnly] using groupOnlys_of_items h
  | group h => simpa [Doc.GroupOnly] using groupOnly_of_items h
theorem groupOnlys_of_items {ds : List Doc} {is : List Item} (h : Doc.ItemsL ds is) : Doc.GroupOnlys ds := by
  cases h with
  | nil => simp [Doc.GroupOnlys]
  | cons h1 h2 => simp only [Doc.GroupOnlys]; exact ⟨groupOnly_of_items h1, groupOnlys_of_items h2⟩
end

theorem builds_groupOnly {k : Nat} {cm : CMap} (ht : ∀ c ∈ cm.all, c.Tidy) {ps : List Prog} {ds : List Doc}
    {log : List Comment} (h : Prog.builds k cm ps = .ok (ds, log)) : ∀ d ∈ ds, d.GroupOnly := by
  have := builds_spec k cm ht ps
  unfold Agrees at this
  rw [h] at this
  cases hi : Prog.itemss cm ps with
  | error e => rw [hi] at this; cases this
  | ok x =>
    rw [hi] at this
    obtain ⟨ds', e, hI, _⟩ := this
    cases e
    exact Doc.groupOnlys_iff.1 (groupOnlys_of_items hI)

/-- **C11**, **C13** for a body with members: the printed text is the opening brace, the members each on a line of its
own one level deeper, with a blank line after exactly those whose flag is set (see `C11_blank_lines_partial`), and the
closing brace on its own line.  `ts` are the texts of the members. -/
theorem C11_body_text (k : Nat) (cm : CMap) (ht : ∀ c ∈ cm.all, c.Tidy) (ms : List (Bool × Prog)) (hne : ms ≠ [])
    (d : Doc) (log : List Comment) (h : Prog.build k cm (surroundBody ms) = .ok (d, log))
    (hs : ∀ m ∈ ms, ∀ e l, Prog.build k cm m.2 = .ok (e, l) → e.startsSolid = true)
    (w i : Nat) (fl : Bool) (rest : List Chunk) (st : PSt) :
    ∃ (ts : List Str) (st' : PSt), ts.length = ms.length ∧ st'.pend = none ∧
      st'.out = st.flush.out ++ ['{'] ++ bodyText (i + k) ((ms.map (·.1)).zip ts) ++ '\n' :: spaces i ++ ['}'] ∧
      ∀ fin, Prints w ({ doc := d, indent := i, flat := fl } :: rest) st fin ↔ Prints w rest st' fin := by
  obtain ⟨es, h1, rfl⟩ := build_surroundBody h
  have hlen : es.length = ms.length := by simpa using builds_length _ h1
  have hg := builds_groupOnly ht h1
  have hsol : ∀ e ∈ es, e.startsSolid = true := by
    have : ∀ (ms : List (Bool × Prog)) (es : List Doc) (log : List Comment),
        (∀ m ∈ ms, ∀ e l, Prog.build k cm m.2 = .ok (e, l) → e.startsSolid = true) →
        Prog.builds k cm (ms.map (·.2)) = .ok (es, log) → ∀ e ∈ es, e.startsSolid = true := by
      intro ms
      induction ms with
      | nil => intro es log _ h; rw [List.map_nil, Prog.builds] at h; cases h; simp
      | cons m ms ih =>
        intro es log hs h
        rw [List.map_cons] at h
        obtain ⟨d, l1, ds', l2, hb, h2, rfl, _⟩ := builds_cons h
        intro e he
        rcases List.mem_cons.1 he with rfl | he
        · exact hs m (by simp) _ _ hb
        · exact ih ds' l2 (fun m hm => hs m (by simp [hm])) h2 e he
    exact this ms es log hs h1
  have hz : ((ms.map (·.1)).zip es) ≠ [] := by
    cases ms with
    | nil => exact absurd rfl hne
    | cons m ms => cases es with
      | nil => simp at hlen
      | cons e es => simp
  have hfst : ((ms.map (·.1)).zip es).map (·.1) = ms.map (·.1) := by
    rw [← List.unzip_fst, List.unzip_zip_left (by simp [hlen])]
  obtain ⟨ts, st', h2, h3, h4, h5⟩ := C13_body_layout w k i fl ((ms.map (·.1)).zip es) ['{'] ['}'] rest st
    (by
      intro m hm
      have := (List.of_mem_zip hm).2
      exact ⟨hsol _ this, hg _ this⟩)
    hz (by decide) (by decide)
  refine ⟨ts, st', ?_, h3, by rw [hfst] at h4; exact h4, h5⟩
  have := congrArg List.length h2
  simpa [hlen] using this

/-! ### Row 0 -/

/-- Example: two classes on the first row, `class A {} class B {}`. -/
def exTwoClasses : Node := exNode 1 "parser_output" 0 0 "" [
  exNode 3 "class_declaration" 0 0 "" [
    exTok 4 "class" 0, exField "name" (exNode 5 "identifier" 0 0 "A" []),
    exField "body" (exNode 6 "class_body" 0 0 "" [exTok 7 "{" 0, exTok 9 "}" 0])],
  exNode 13 "class_declaration" 0 0 "" [
    exTok 14 "class" 0, exField "name" (exNode 15 "identifier" 0 0 "B" []),
    exField "body" (exNode 16 "class_body" 0 0 "" [exTok 17 "{" 0, exTok 19 "}" 0])]]

/-- The same on the second row: the blank line is not inserted. -/
def exTwoClasses1 : Node := exNode 1 "parser_output" 1 1 "" [
  exNode 3 "class_declaration" 1 1 "" [
    exTok 4 "class" 1, exField "name" (exNode 5 "identifier" 1 1 "A" []),
    exField "body" (exNode 6 "class_body" 1 1 "" [exTok 7 "{" 1, exTok 9 "}" 1])],
  exNode 13 "class_declaration" 1 1 "" [
    exTok 14 "class" 1, exField "name" (exNode 15 "identifier" 1 1 "B" []),
    exField "body" (exNode 16 "class_body" 1 1 "" [exTok 17 "{" 1, exTok 19 "}" 1])]]

example : formatTree true 9 ⟨80, 2⟩ exTwoClasses1 = .ok "class A {\n}\nclass B {\n}\n".toList := by decide

/-- **C11 is false** for members on the first row: the release build inserts a blank line although the source has none
(`row - 1` wraps around), the debug build panics. -/
theorem C11_row_zero_false :
    formatTree false 9 ⟨80, 2⟩ exTwoClasses = .ok "class A {\n}\n\nclass B {\n}\n".toList ∧
    formatTree true 9 ⟨80, 2⟩ exTwoClasses = .error .arithmetic ∧
    ∀ n ∈ (Loc.ofRoot exTwoClasses).childrenVec, ∀ s, n.nextNamedSibling = some s → ¬ n.endRow + 1 < s.startRow := by
  refine ⟨by decide, by decide, ?_⟩
  intro n hn s hs
  simp only [exTwoClasses, Loc.ofRoot, Loc.childrenVec, Loc.namedChildren, Loc.children, Loc.childrenGo, exNode] at hn
  simp [Loc.named, Loc.extra] at hn
  rcases hn with rfl | rfl
  · simp [Loc.nextNamedSibling, Loc.rightSiblings, Loc.childrenGo, Loc.named] at hs
    subst hs; simp [Loc.endRow, Loc.startRow]
  · simp [Loc.nextNamedSibling, Loc.rightSiblings, Loc.childrenGo, Loc.named] at hs

open Prog.New in
/-- The general fact behind `C11_row_zero_false`: whenever the next named sibling starts on row 0 and no comment follows,
the debug build panics and the release build inserts a blank line. -/
theorem C11_row_zero_always_wrong (cm : CMap) (b : Bucket) (n s : Loc) (hb : cm.get? n.id = some b) (hp : b.post = [])
    (hn : n.nextNamedSibling = some s) (hs : s.startRow = 0) :
    hasTrailingNewline ⟨cm, true⟩ n = .error .arithmetic ∧ hasTrailingNewline ⟨cm, false⟩ n = .ok true := by
  simp [hasTrailingNewline, getBucket, hb, hp, hn, hs]

end Afmt
