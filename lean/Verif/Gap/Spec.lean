import Verif.Gap.Scan

/-!
# Blanks around operators and brackets: the rules at every position

What `spaced` says about the characters of a text, without the reader that defines it.
-/

namespace Afmt.Gap

/-- One character further: outside of string literals (0), inside (1), behind a backslash inside (2). -/
def litStep (n : Nat) (c : Char) : Nat :=
  if n = 0 then (if c = '\'' then 1 else 0)
  else if n = 1 then (if c = '\'' then 0 else if c = '\\' then 2 else 1)
  else 1

/-- What follows the text is not inside of a string literal. -/
def outside (s : Str) : Bool := s.foldl litStep 0 == 0

/-- Blanks and line breaks. -/
def isGap (c : Char) : Bool := c == ' ' || c == '\n'
/-- The characters of operators that always have white space around them. -/
def isStrong (c : Char) : Bool := ['=', '*', '/', '%', '&', '|', '^'].contains c
/-- The other characters of operators. -/
def isWeak (c : Char) : Bool := ['<', '>', '+', '-', '!', '~'].contains c
/-- A sign. -/
def isSign (c : Char) : Bool := ['+', '-', '!', '~'].contains c

/-- The text is empty or ends with white space. -/
def endsGap (s : Str) : Bool :=
  match s.getLast? with
  | none => true
  | some c => isGap c

/-- Position of the reader in string literals. -/
def Sc.lit : Sc → Nat
  | .I => 1
  | .J => 2
  | _ => 0

/-- The characters of a kind. -/
def Cc.Of (c : Char) : Cc → Prop
  | .blank => c = ' '
  | .feed => c = '\n'
  | .quote => c = '\''
  | .slash => c = '\\'
  | .comma => c = ','
  | .semi => c = ';'
  | .opening => c = '(' ∨ c = '['
  | .closing => c = ')' ∨ c = ']'
  | .quest => c = '?'
  | .colon => c = ':'
  | .dot => c = '.'
  | .eq => c = '='
  | .strong => c = '*' ∨ c = '/' ∨ c = '%' ∨ c = '&' ∨ c = '|' ∨ c = '^'
  | .angle => c = '<' ∨ c = '>'
  | .sign => c = '+' ∨ c = '-' ∨ c = '!' ∨ c = '~'
  | .other => True

theorem cc_of (c : Char) : (cc c).Of c := by
  unfold cc
  by_cases h0 : c = ' '
  · rw [if_pos h0]; exact h0
  rw [if_neg h0]
  by_cases h1 : c = '\n'
  · rw [if_pos h1]; exact h1
  rw [if_neg h1]
  by_cases h2 : c = '\''
  · rw [if_pos h2]; exact h2
  rw [if_neg h2]
  by_cases h3 : c = '\\'
  · rw [if_pos h3]; exact h3
  rw [if_neg h3]
  by_cases h4 : c = ','
  · rw [if_pos h4]; exact h4
  rw [if_neg h4]
  by_cases h5 : c = ';'
  · rw [if_pos h5]; exact h5
  rw [if_neg h5]
  by_cases h6 : c = '(' ∨ c = '['
  · rw [if_pos h6]; exact h6
  rw [if_neg h6]
  by_cases h7 : c = ')' ∨ c = ']'
  · rw [if_pos h7]; exact h7
  rw [if_neg h7]
  by_cases h8 : c = '?'
  · rw [if_pos h8]; exact h8
  rw [if_neg h8]
  by_cases h9 : c = ':'
  · rw [if_pos h9]; exact h9
  rw [if_neg h9]
  by_cases h10 : c = '.'
  · rw [if_pos h10]; exact h10
  rw [if_neg h10]
  by_cases h11 : c = '='
  · rw [if_pos h11]; exact h11
  rw [if_neg h11]
  by_cases h12 : c = '*' ∨ c = '/' ∨ c = '%' ∨ c = '&' ∨ c = '|' ∨ c = '^'
  · rw [if_pos h12]; exact h12
  rw [if_neg h12]
  by_cases h13 : c = '<' ∨ c = '>'
  · rw [if_pos h13]; exact h13
  rw [if_neg h13]
  by_cases h14 : c = '+' ∨ c = '-' ∨ c = '!' ∨ c = '~'
  · rw [if_pos h14]; exact h14
  rw [if_neg h14]
  trivial

theorem cc_get {c : Char} {k : Cc} (h : cc c = k) : k.Of c := h ▸ cc_of c

theorem cc_blank {c : Char} : cc c = .blank ↔ c = ' ' := ⟨cc_get, by rintro rfl; rfl⟩
theorem cc_feed {c : Char} : cc c = .feed ↔ c = '\n' := ⟨cc_get, by rintro rfl; rfl⟩
theorem cc_quote {c : Char} : cc c = .quote ↔ c = '\'' := ⟨cc_get, by rintro rfl; rfl⟩
theorem cc_slash {c : Char} : cc c = .slash ↔ c = '\\' := ⟨cc_get, by rintro rfl; rfl⟩
theorem cc_comma {c : Char} : cc c = .comma ↔ c = ',' := ⟨cc_get, by rintro rfl; rfl⟩
theorem cc_semi {c : Char} : cc c = .semi ↔ c = ';' := ⟨cc_get, by rintro rfl; rfl⟩
theorem cc_quest {c : Char} : cc c = .quest ↔ c = '?' := ⟨cc_get, by rintro rfl; rfl⟩
theorem cc_colon {c : Char} : cc c = .colon ↔ c = ':' := ⟨cc_get, by rintro rfl; rfl⟩
theorem cc_dot {c : Char} : cc c = .dot ↔ c = '.' := ⟨cc_get, by rintro rfl; rfl⟩
theorem cc_eq {c : Char} : cc c = .eq ↔ c = '=' := ⟨cc_get, by rintro rfl; rfl⟩
theorem cc_opening {c : Char} : cc c = .opening ↔ c = '(' ∨ c = '[' := ⟨cc_get, by rintro (rfl | rfl) <;> rfl⟩
theorem cc_closing {c : Char} : cc c = .closing ↔ c = ')' ∨ c = ']' := ⟨cc_get, by rintro (rfl | rfl) <;> rfl⟩
theorem cc_strong {c : Char} : (cc c = .eq ∨ cc c = .strong) ↔ isStrong c = true := by
  constructor
  · rintro (h | h)
    · obtain rfl := cc_get h; decide
    · rcases cc_get h with h | h | h | h | h | h <;> subst h <;> decide
  · intro h
    simp only [isStrong, List.contains_eq_mem, List.mem_cons, List.not_mem_nil, or_false, decide_eq_true_eq] at h
    rcases h with h | h | h | h | h | h | h <;> subst h <;> decide
theorem cc_weak {c : Char} : (cc c = .angle ∨ cc c = .sign) ↔ isWeak c = true := by
  constructor
  · rintro (h | h)
    · rcases cc_get h with h | h <;> subst h <;> decide
    · rcases cc_get h with h | h | h | h <;> subst h <;> decide
  · intro h
    simp only [isWeak, List.contains_eq_mem, List.mem_cons, List.not_mem_nil, or_false, decide_eq_true_eq] at h
    rcases h with h | h | h | h | h | h <;> subst h <;> decide
theorem cc_sign {c : Char} : cc c = .sign ↔ isSign c = true := by
  constructor
  · intro h
    rcases cc_get h with h | h | h | h <;> subst h <;> decide
  · intro h
    simp only [isSign, List.contains_eq_mem, List.mem_cons, List.not_mem_nil, or_false, decide_eq_true_eq] at h
    rcases h with h | h | h | h <;> subst h <;> decide

/-- A visible character that is read outside of string literals. -/
theorem step_visible {t : Bool} {x y : Sc} {c : Char} (hx : x.lit = 0) (hb : cc c ≠ .blank) (hf : cc c ≠ .feed)
    (h : step t x c = some y) : visible t x (cc c) = some y := by
  unfold step at h
  cases x <;> first | (cases hx; done) | skip
  all_goals
    dsimp only at h
    split at h
    · contradiction
    · contradiction
    · exact h

theorem fresh_lit {x y : Sc} {k : Cc} (hb : k ≠ .blank) (hf : k ≠ .feed) (h : fresh x k = some y) :
    y.white = false ∧ y.lit = (if k = .quote then 1 else 0) := by
  unfold fresh at h
  cases k <;> simp only [reduceCtorEq, if_true, if_false, ne_eq, not_true_eq_false] at * <;>
    (try split at h) <;> first | (cases h; exact ⟨rfl, rfl⟩) | cases h

theorem visible_lit {t : Bool} {x y : Sc} {k : Cc} (hb : k ≠ .blank) (hf : k ≠ .feed)
    (h : visible t x k = some y) : y.white = false ∧ y.lit = (if k = .quote then 1 else 0) := by
  unfold visible at h
  split at h
  all_goals try (split at h)
  all_goals try (split at h)
  all_goals first
    | cases h; done
    | (cases h; exact ⟨rfl, rfl⟩)
    | exact fresh_lit hb hf h

/-- The reader knows the string literals. -/
theorem step_lit {t : Bool} {x y : Sc} {c : Char} (h : step t x c = some y) : y.lit = litStep x.lit c := by
  by_cases hx : x.lit = 0
  · rw [hx, litStep, if_pos rfl]
    by_cases hb : cc c = .blank
    · obtain rfl := cc_blank.1 hb
      cases x <;> first | (cases hx; done) | skip
      all_goals
        simp only [step, hb] at h
        repeat' split at h
        all_goals first | cases h; done | (cases h; rfl)
    · by_cases hf : cc c = .feed
      · obtain rfl := cc_feed.1 hf
        cases x <;> first | (cases hx; done) | skip
        all_goals
          simp only [step, hf] at h
          repeat' split at h
          all_goals first | cases h; done | (cases h; rfl)
      · rw [(visible_lit hb hf (step_visible hx hb hf h)).2]
        simp only [cc_quote]
  · cases x <;> first | (exact absurd rfl hx) | skip
    · simp only [step, cc_quote, cc_slash] at h
      simp only [Sc.lit, litStep, Nat.one_ne_zero, if_false, if_true]
      split at h
      · rename_i hc; cases h; rw [if_pos hc]
      · rename_i hc
        rw [if_neg hc]
        split at h
        · rename_i hc; cases h; rw [if_pos hc]
        · rename_i hc; cases h; rw [if_neg hc]
    · cases h; rfl

theorem scan_lit {t : Bool} {s : Str} : ∀ {x y : Sc}, scan t x s = some y → y.lit = s.foldl litStep x.lit := by
  induction s with
  | nil => intro x y h; cases h; rfl
  | cons c s ih =>
    intro x y h
    rw [scan] at h
    cases hs : step t x c with
    | none => rw [hs] at h; cases h
    | some z =>
      rw [hs] at h
      rw [List.foldl_cons, ← step_lit hs]
      exact ih h

/-- Reading up to a position outside of string literals. -/
theorem scan_at {t : Bool} {a b : Str} (h : spaced t (a ++ b) = true) (ho : outside a = true) :
    ∃ y, scan t .L a = some y ∧ y.lit = 0 ∧ (scan t y b).isSome = true := by
  unfold spaced at h
  rw [scan_append] at h
  cases hs : scan t .L a with
  | none => rw [hs] at h; cases h
  | some y =>
    rw [hs] at h
    refine ⟨y, rfl, ?_, h⟩
    rw [scan_lit hs]
    exact beq_iff_eq.1 ho

/-- The last step. -/
theorem read_last {t : Bool} {a : Str} {c : Char} {x y : Sc} (h : scan t x (a ++ [c]) = some y) :
    ∃ z, scan t x a = some z ∧ step t z c = some y := by
  rw [scan_append] at h
  cases hs : scan t x a with
  | none => rw [hs] at h; cases h
  | some z =>
    rw [hs] at h
    refine ⟨z, rfl, ?_⟩
    simp only [Option.bind_some, scan] at h
    cases hz : step t z c with
    | none => rw [hz] at h; cases h
    | some w => rw [hz] at h; simpa using h

theorem cut_last (a : Str) : a = [] ∨ ∃ b c, a = b ++ [c] := by
  rcases List.eq_nil_or_concat a with h | ⟨b, c, h⟩
  · exact .inl h
  · exact .inr ⟨b, c, by simpa using h⟩

/-- After white space, the reader has read white space. -/
theorem white_iff {t : Bool} {a : Str} {y : Sc} (h : scan t .L a = some y) (hl : y.lit = 0) : y.white = endsGap a := by
  rcases cut_last a with rfl | ⟨b, c, rfl⟩
  · cases h; rfl
  · obtain ⟨z, -, h2⟩ := read_last h
    have hz : endsGap (b ++ [c]) = isGap c := by simp [endsGap]
    rw [hz]
    by_cases hb : cc c = .blank
    · obtain rfl := cc_blank.1 hb
      cases z <;> simp only [step, hb] at h2
      all_goals first
        | (repeat' split at h2) <;> first | cases h2; done | contradiction | (cases h2; first | rfl | (cases hl; done))
    · by_cases hf : cc c = .feed
      · obtain rfl := cc_feed.1 hf
        cases z <;> simp only [step, hf] at h2
        all_goals first
          | (repeat' split at h2) <;> first | cases h2; done | contradiction | (cases h2; first | rfl | (cases hl; done))
      · have hg : isGap c = false := by
          rw [isGap, Bool.or_eq_false_iff]
          exact ⟨beq_eq_false_iff_ne.2 (fun e => hb (cc_blank.2 e)), beq_eq_false_iff_ne.2 (fun e => hf (cc_feed.2 e))⟩
        rw [hg]
        by_cases hx : z.lit = 0
        · exact (visible_lit hb hf (step_visible hx hb hf h2)).1
        · cases z <;> first | (exact absurd rfl hx) | skip
          · simp only [step] at h2
            repeat' split at h2
            all_goals (cases h2; rfl)
          · cases h2; rfl

/-- In the middle of an operator. -/
def Sc.oper : Sc → Bool
  | .P _ | .E _ | .S | .Q _ => true
  | _ => false

theorem oper_iff {t : Bool} {a : Str} {y : Sc} (h : scan t .L a = some y) (ho : y.oper = true) :
    ∃ c, a.getLast? = some c ∧ (isStrong c || isWeak c || c == '?') = true := by
  rcases cut_last a with rfl | ⟨b, c, rfl⟩
  · cases h; cases ho
  · obtain ⟨z, -, h2⟩ := read_last h
    refine ⟨c, by simp, ?_⟩
    have key : cc c = .eq ∨ cc c = .strong ∨ cc c = .angle ∨ cc c = .sign ∨ cc c = .quest := by
      cases hk : cc c <;> simp only [reduceCtorEq, or_true, or_false, or_self] <;> exfalso <;>
        cases z <;> simp only [step, hk, visible, fresh] at h2 <;>
        (repeat' split at h2) <;> first | (cases h2; done) | (cases h2; cases ho; done) | contradiction
    rw [Bool.or_eq_true, Bool.or_eq_true, ← cc_strong, ← cc_weak, beq_iff_eq, ← cc_quest]
    rcases key with h | h | h | h | h <;> simp [h]

/-- Only blanks since the last line break. -/
def indented (s : Str) : Bool := (s.reverse.find? (· != ' ')).all (· == '\n')

theorem L_iff {t : Bool} : ∀ {a : Str}, scan t .L a = some .L → indented a = true := by
  intro a
  generalize hn : a.length = n
  induction n generalizing a with
  | zero => intro _; rw [List.length_eq_zero_iff.1 hn]; rfl
  | succ n ih =>
    intro h
    rcases cut_last a with rfl | ⟨b, c, rfl⟩
    · rfl
    · obtain ⟨z, h1, h2⟩ := read_last h
      have hb : b.length = n := by simpa using hn
      unfold indented
      rw [List.reverse_append]
      by_cases hc : c = ' '
      · subst hc
        have hz : z = .L := by
          cases z <;> simp only [step, show cc ' ' = .blank from rfl] at h2 <;>
            (repeat' split at h2) <;> first | rfl | (cases h2; done) | contradiction
        subst hz
        exact ih hb h1
      · have hd : c = '\n' := by
          cases hk : cc c
          case blank => exact absurd (cc_blank.1 hk) hc
          case feed => exact cc_feed.1 hk
          all_goals
            exfalso
            cases z <;> simp only [step, hk, visible, fresh] at h2 <;>
              (repeat' split at h2) <;> first | (cases h2; done) | contradiction
        subst hd
        rfl

/-- No white space before a comma. -/
theorem spaced_comma {t : Bool} {a b : Str} (h : spaced t (a ++ ',' :: b) = true) (ho : outside a = true) : endsGap a = false := by
  obtain ⟨y, h1, h2, h3⟩ := scan_at h ho
  rw [← white_iff h1 h2]
  cases y <;> first | rfl | (cases h2; done) | (cases h3; done)

/-- No blank before a semicolon or a closing bracket, except the indentation. -/
theorem spaced_close {t : Bool} {a b : Str} {c : Char} (hc : c = ';' ∨ c = ')' ∨ c = ']') (h : spaced t (a ++ c :: b) = true)
    (ho : outside a = true) : endsGap a = false ∨ indented a = true := by
  obtain ⟨y, h1, h2, h3⟩ := scan_at h ho
  rw [← white_iff h1 h2]
  cases y with
  | W => rcases hc with rfl | rfl | rfl <;> cases h3
  | L => exact .inr (L_iff h1)
  | I | J => cases h2
  | _ => exact .inl rfl

/-- No blank after an opening bracket. -/
theorem spaced_open {t : Bool} {a b : Str} {c d : Char} (hc : c = '(' ∨ c = '[') (h : spaced t (a ++ c :: d :: b) = true)
    (ho : outside a = true) : d ≠ ' ' := by
  rintro rfl
  obtain ⟨y, h1, h2, h3⟩ := scan_at h ho
  rcases hc with rfl | rfl <;> cases y with
    | P w | E w | Q w | D w => cases w <;> cases t <;> first | (cases h3; done) | (cases h2; done)
    | _ => first | (cases h3; done) | (cases h2; done)

/-- White space before a colon that has white space after it. -/
theorem spaced_colon {t : Bool} {a b : Str} {d : Char} (hd : isGap d = true) (h : spaced t (a ++ ':' :: d :: b) = true)
    (ho : outside a = true) : endsGap a = true := by
  obtain ⟨y, h1, h2, h3⟩ := scan_at h ho
  rw [← white_iff h1 h2]
  have hd' : d = ' ' ∨ d = '\n' := by simpa [isGap] using hd
  rcases hd' with rfl | rfl <;> cases y with
    | P w | E w | Q w | D w => cases w <;> cases t <;> first | (cases h3; done) | (cases h2; done)
    | _ => first | rfl | (cases h3; done) | (cases h2; done)

/-- White space around a question mark that is not followed by a dot, and that does not belong to `??`. -/
theorem spaced_quest {t : Bool} {a b : Str} {d : Char} (hd : d ≠ '.') (hd' : d ≠ '?') (ha : a.getLast? ≠ some '?')
    (h : spaced t (a ++ '?' :: d :: b) = true) (ho : outside a = true) : endsGap a = true ∧ isGap d = true := by
  obtain ⟨y, h1, h2, h3⟩ := scan_at h ho
  rw [← white_iff h1 h2]
  have hq : ∀ w, scan t (.Q w) (d :: b) = none ∨ (w = true ∧ isGap d = true) := by
    intro w
    cases hk : cc d
    case blank =>
      obtain rfl := cc_blank.1 hk
      cases w
      · exact .inl rfl
      · exact .inr ⟨rfl, rfl⟩
    case feed =>
      obtain rfl := cc_feed.1 hk
      cases w
      · exact .inl rfl
      · exact .inr ⟨rfl, rfl⟩
    case dot => exact absurd (cc_dot.1 hk) hd
    case quest => exact absurd (cc_quest.1 hk) hd'
    all_goals (left; simp only [scan, step, hk, visible, Option.bind_none])
  have hQ : ∀ w, (scan t (.Q w) (d :: b)).isSome = true → w = true ∧ isGap d = true := by
    intro w hw
    rcases hq w with h | h
    · rw [h] at hw; cases hw
    · exact h
  have hy : ∀ w, y ≠ .Q w := by
    rintro w rfl
    rcases cut_last a with rfl | ⟨a', c, rfl⟩
    · cases h1
    · obtain ⟨z, -, h5⟩ := read_last h1
      refine ha ?_
      rw [List.getLast?_append]
      have hc : cc c = .quest := by
        cases hk : cc c
        case quest => rfl
        all_goals
          exfalso
          cases z <;> simp only [step, hk, visible, fresh] at h5 <;>
            (repeat' split at h5) <;> first | (cases h5; done) | contradiction
      rw [cc_quest.1 hc]; rfl
  cases y with
  | Q w => exact absurd rfl (hy w)
  | I | J => cases h2
  | S => cases h3
  | N => exact hQ false h3
  | W => exact hQ true h3
  | L => exact hQ true h3
  | O => exact hQ false h3
  | P w => exact absurd (hQ false h3).1 (by decide)
  | D w => exact absurd (hQ false h3).1 (by decide)
  | E w =>
    cases w <;> cases t
    · cases h3
    · exact absurd (hQ false h3).1 (by decide)
    · cases h3
    · cases h3

/-- Reading the rest of an operator. -/
theorem run_S {t : Bool} : ∀ {op : Str}, op.all (fun c => isStrong c || isWeak c) = true → scan t .S op = some .S
  | [], _ => rfl
  | c :: r, h => by
    rw [List.all_cons, Bool.and_eq_true, Bool.or_eq_true, ← cc_strong, ← cc_weak] at h
    have : step t .S c = some .S := by
      rcases h.1 with (h | h) | (h | h) <;> simp only [step, h, visible]
    rw [scan, this]
    exact run_S h.2

theorem run_P {t w : Bool} : ∀ {op : Str} {y : Sc}, op.all (fun c => isStrong c || isWeak c) = true →
    scan t (.P w) op = some y → y = .P w ∧ op.any isStrong = false ∨ w = true ∧ y = .S
  | [], y, _, h => by cases h; exact .inl ⟨rfl, rfl⟩
  | c :: r, y, ho, h => by
    rw [List.all_cons, Bool.and_eq_true, Bool.or_eq_true] at ho
    rw [scan] at h
    by_cases hs : isStrong c = true
    · have : step t (.P w) c = if w then some .S else none := by
        rcases cc_strong.2 hs with h | h <;> simp only [step, h, visible]
      rw [this] at h
      cases w with
      | false => cases h
      | true =>
        refine .inr ⟨rfl, ?_⟩
        rw [if_pos rfl, Option.bind_some, run_S ho.2] at h
        exact (Option.some.inj h).symm
    · have hw : isWeak c = true := ho.1.resolve_left hs
      have : step t (.P w) c = some (.P w) := by
        rcases cc_weak.2 hw with h | h <;> simp only [step, h, visible]
      rw [this, Option.bind_some] at h
      rcases run_P ho.2 h with ⟨h1, h2⟩ | h1
      · refine .inl ⟨h1, ?_⟩
        rw [List.any_cons, h2, Bool.or_false]
        simpa using hs
      · exact .inr h1

/-- An `=` that may have no white space around it: alone or before a sign. -/
def loneEq : Str → Bool
  | ['='] => true
  | '=' :: c :: _ => isSign c
  | _ => false

theorem step_eq_E {t w : Bool} {c : Char} (h : cc c = .eq ∨ cc c = .strong ∨ cc c = .angle) :
    step t (.E w) c = if w then some .S else none := by
  rcases h with h | h | h <;> simp only [step, h, visible]

/-- White space on both sides of an operator that contains one of `= * / % & | ^`; `op` is the whole operator, something
follows it, and if `t`, it is no `=` alone or before a sign. -/
theorem spaced_operator {t : Bool} {a op b : Str} {d : Char} (hop : op.all (fun c => isStrong c || isWeak c) = true)
    (hst : op.any isStrong = true) (ha : ∀ c, a.getLast? = some c → (isStrong c || isWeak c || c == '?') = false)
    (hd : (isStrong d || isWeak d) = false) (he : t = false ∨ loneEq op = false)
    (h : spaced t (a ++ (op ++ d :: b)) = true) (ho : outside a = true) : endsGap a = true ∧ isGap d = true := by
  obtain ⟨y, h1, h2, h3⟩ := scan_at h ho
  rw [← white_iff h1 h2]
  have hno : y.oper = false := by
    cases hy : y.oper with
    | false => rfl
    | true =>
      obtain ⟨c, h5, h6⟩ := oper_iff h1 hy
      rw [ha c h5] at h6; cases h6
  have hdk : cc d ≠ .eq ∧ cc d ≠ .strong ∧ cc d ≠ .angle ∧ cc d ≠ .sign := by
    rw [Bool.or_eq_false_iff] at hd
    refine ⟨fun e => ?_, fun e => ?_, fun e => ?_, fun e => ?_⟩
    · rw [cc_strong.1 (.inl e)] at hd; cases hd.1
    · rw [cc_strong.1 (.inr e)] at hd; cases hd.1
    · rw [cc_weak.1 (.inl e)] at hd; cases hd.2
    · rw [cc_weak.1 (.inr e)] at hd; cases hd.2
  have after : ∀ z, (scan t z (d :: b)).isSome = true → (z = .S ∨ z = .E true ∨ z = .E false ∧ t = false) → isGap d = true ∧ z ≠ .E false := by
    intro z hz hs
    cases hk : cc d
    case blank =>
      obtain rfl := cc_blank.1 hk
      refine ⟨rfl, ?_⟩
      rintro rfl
      cases hz
    case feed =>
      obtain rfl := cc_feed.1 hk
      refine ⟨rfl, ?_⟩
      rintro rfl
      cases hz
    all_goals
      exfalso
      first
        | exact hdk.1 hk
        | exact hdk.2.1 hk
        | exact hdk.2.2.1 hk
        | exact hdk.2.2.2 hk
        | (rcases hs with rfl | rfl | ⟨rfl, rfl⟩ <;> simp [scan, step, hk, visible] at hz)
  have hmid : ∃ z, scan t y op = some z ∧ (scan t z (d :: b)).isSome = true := by
    rw [scan_append] at h3
    cases hs : scan t y op with
    | none => rw [hs] at h3; cases h3
    | some z => rw [hs] at h3; exact ⟨z, rfl, h3⟩
  obtain ⟨z, h4, h5⟩ := hmid
  have key : (y.white = true ∧ (z = .S ∨ z = .E true)) ∨ (z = .E false ∧ t = false) := by
    cases op with
    | nil => cases hst
    | cons c r =>
      rw [List.all_cons, Bool.and_eq_true, Bool.or_eq_true, ← cc_strong, ← cc_weak] at hop
      have hsv : ∀ u, step t y c = some u → fresh y (cc c) = some u ∨ fresh .N (cc c) = some u ∧ y.white = false := by
        intro u hu
        have hv := step_visible h2 (by rcases hop.1 with (h | h) | (h | h) <;> rw [h] <;> decide)
          (by rcases hop.1 with (h | h) | (h | h) <;> rw [h] <;> decide) hu
        cases y <;> first | (cases hno; done) | exact .inl hv | exact .inr ⟨hv, rfl⟩
      rw [scan] at h4
      cases hu : step t y c with
      | none => rw [hu] at h4; cases h4
      | some u =>
        rw [hu, Option.bind_some] at h4
        have hu' : fresh y (cc c) = some u ∨ fresh .N (cc c) = some u ∧ y.white = false := hsv u hu
        have hfr : ∃ v : Sc, fresh v (cc c) = some u ∧ v.white = y.white := by
          rcases hu' with h | ⟨h, e⟩
          · exact ⟨y, h, rfl⟩
          · exact ⟨.N, h, e.symm⟩
        obtain ⟨v, hv, hvw⟩ := hfr
        rw [← hvw]
        rcases hop.1 with (hk | hk) | (hk | hk)
        · -- `=`
          rw [hk] at hv
          simp only [fresh, Option.some.injEq] at hv
          subst hv
          obtain rfl := cc_eq.1 hk
          cases r with
          | nil =>
            cases h4
            cases hw : v.white with
            | true => exact .inl ⟨rfl, .inr rfl⟩
            | false => exact .inr ⟨rfl, he.resolve_right (by decide)⟩
          | cons e r =>
            rw [scan] at h4
            have hee := hop.2
            rw [List.all_cons, Bool.and_eq_true, Bool.or_eq_true] at hee
            by_cases hsg : cc e = .sign
            · exfalso
              have ht : t = false := he.resolve_right (by
                rw [show loneEq ('=' :: e :: r) = isSign e from rfl, cc_sign.1 hsg]; decide)
              subst ht
              simp [step, hsg, visible] at h4
            · rw [step_eq_E (by
                rcases hee.1 with h | h
                · exact (cc_strong.2 h).imp id (fun h => .inl h)
                · exact .inr (.inr ((cc_weak.2 h).resolve_right hsg)))] at h4
              cases hw : v.white with
              | false => rw [hw] at h4; cases h4
              | true =>
                rw [hw, if_pos rfl, Option.bind_some, run_S hee.2] at h4
                exact .inl ⟨rfl, .inl (Option.some.inj h4).symm⟩
        · rw [hk] at hv
          cases hw : v.white with
          | false => simp [fresh, hw] at hv
          | true =>
            simp only [fresh, hw, if_true, Option.some.injEq] at hv
            subst hv
            rw [run_S hop.2] at h4
            exact .inl ⟨rfl, .inl (Option.some.inj h4).symm⟩
        all_goals
          rw [hk] at hv
          simp only [fresh, Option.some.injEq] at hv
          subst hv
          have hc : isStrong c = false := by
            cases hcs : isStrong c with
            | false => rfl
            | true => exfalso; rcases cc_strong.2 hcs with h | h <;> rw [hk] at h <;> cases h
          rw [List.any_cons, hc, Bool.false_or] at hst
          rcases run_P hop.2 h4 with ⟨-, h6⟩ | ⟨h6, h7⟩
          · rw [hst] at h6; cases h6
          · exact .inl ⟨h6, .inl h7⟩
  rcases key with ⟨h6, h7⟩ | ⟨h6, h7⟩
  · exact ⟨h6, (after z h5 (h7.imp id .inl)).1⟩
  · exact absurd h6 (after z h5 (.inr (.inr ⟨h6, h7⟩))).2

end Afmt.Gap
