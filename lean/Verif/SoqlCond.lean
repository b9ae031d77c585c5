import Verif.Gram.Content

/-!
# Specification for C41: conditions of SOQL queries, their meaning and how they are read

Independent of the formatter: conditions, truth, tokens, and the grammar of conditions.  In SOQL an operand of `AND`,
`OR` or `NOT` is a comparison or a condition in parentheses (https://developer.salesforce.com, and the split into
`BooleanExpression` and `ConditionExpression` in src/enum_def.rs 1155-1210).
-/

namespace Afmt

/-- Conditions over comparisons of type `α`. -/
inductive Cond (α : Type) where
  | cmp (a : α)
  | and (cs : List (Cond α))
  | or (cs : List (Cond α))
  | not (c : Cond α)

variable {α : Type}

mutual
/-- Truth of a condition, given the truth of the comparisons. -/
def Cond.eval (v : α → Bool) : Cond α → Bool
  | .cmp a => v a
  | .and cs => Cond.evalAll v cs
  | .or cs => Cond.evalAny v cs
  | .not c => !Cond.eval v c
/-- All conditions hold. -/
def Cond.evalAll (v : α → Bool) : List (Cond α) → Bool
  | [] => true
  | c :: cs => Cond.eval v c && Cond.evalAll v cs
/-- Some condition holds. -/
def Cond.evalAny (v : α → Bool) : List (Cond α) → Bool
  | [] => false
  | c :: cs => Cond.eval v c || Cond.evalAny v cs
end

/-- Tokens of a printed condition. -/
inductive CTok (α : Type) where
  | atom (a : α)
  | lp
  | rp
  | and
  | or
  | not

mutual
/-- The grammar: a condition. -/
inductive Reads : List (CTok α) → Cond α → Prop
  | and {ts cs} : ReadsSeq .and ts cs → 2 ≤ cs.length → Reads ts (.and cs)
  | or {ts cs} : ReadsSeq .or ts cs → 2 ≤ cs.length → Reads ts (.or cs)
  | not {ts c} : ReadsOp ts c → Reads (.not :: ts) (.not c)
  | op {ts c} : ReadsOp ts c → Reads ts c
/-- An operand: a comparison or a condition in parentheses. -/
inductive ReadsOp : List (CTok α) → Cond α → Prop
  | cmp {a} : ReadsOp [.atom a] (.cmp a)
  | paren {ts c} : Reads ts c → ReadsOp (.lp :: (ts ++ [.rp])) c
/-- Operands separated by a token. -/
inductive ReadsSeq : CTok α → List (CTok α) → List (Cond α) → Prop
  | one {op ts c} : ReadsOp ts c → ReadsSeq op ts [c]
  | cons {op ts c ts' cs} : ReadsOp ts c → ReadsSeq op ts' cs → ReadsSeq op (ts ++ op :: ts') (c :: cs)
end

/-! ### The grammar is unambiguous -/

/-- The tokens do not begin with a connective. -/
def NoConn (ts : List (CTok α)) : Prop := ts.head? ≠ some .and ∧ ts.head? ≠ some .or

/-- A sequence with its first operand split off. -/
theorem seq_split {op : CTok α} {ts : List (CTok α)} {cs : List (Cond α)} (h : ReadsSeq op ts cs) :
    ∃ c cs' t ts', cs = c :: cs' ∧ ts = t ++ ts' ∧ ReadsOp t c ∧
      ((cs' = [] ∧ ts' = []) ∨ ∃ u, ts' = op :: u ∧ ReadsSeq op u cs') := by
  cases h with
  | one h => exact ⟨_, [], _, [], rfl, by simp, h, .inl ⟨rfl, rfl⟩⟩
  | cons h h' => exact ⟨_, _, _, _, rfl, rfl, h, .inr ⟨_, rfl, h'⟩⟩

theorem op_head {ts : List (CTok α)} {c : Cond α} (h : ReadsOp ts c) : ∃ x r, ts = x :: r ∧ x ≠ .not := by
  cases h with
  | cmp => exact ⟨_, _, rfl, by simp⟩
  | paren => exact ⟨_, _, rfl, by simp⟩

/-- What the three lemmas below say for tokens up to a length. -/
structure Det (α : Type) (n : Nat) : Prop where
  op : ∀ {t t' r r' : List (CTok α)} {c c' : Cond α}, t.length ≤ n → ReadsOp t c → ReadsOp t' c' → t ++ r = t' ++ r' →
    t = t' ∧ c = c'
  seq : ∀ {o : CTok α} {t t' r r' : List (CTok α)} {cs cs' : List (Cond α)}, t.length ≤ n → ReadsSeq o t cs → ReadsSeq o t' cs' →
    r.head? ≠ some o → r'.head? ≠ some o → t ++ r = t' ++ r' → t = t' ∧ cs = cs'
  bool : ∀ {t t' r r' : List (CTok α)} {c c' : Cond α}, t.length ≤ n → Reads t c → Reads t' c' → NoConn r → NoConn r' →
    t ++ r = t' ++ r' → t = t' ∧ c = c'

theorem det_op {n : Nat} (ih : ∀ m, m < n → Det α m) {t t' r r' : List (CTok α)} {c c' : Cond α} (hl : t.length ≤ n)
    (h : ReadsOp t c) (h' : ReadsOp t' c') (e : t ++ r = t' ++ r') : t = t' ∧ c = c' := by
  cases h with
  | cmp =>
    cases h' with
    | cmp => simp at e; simp [e.1]
    | paren => simp at e
  | @paren u _ hu =>
    cases h' with
    | cmp => simp at e
    | @paren u' _ hu' =>
      simp only [List.length_cons, List.length_append, List.length_nil] at hl
      simp only [List.cons_append, List.append_assoc, List.cons.injEq, true_and, List.nil_append] at e
      have := (ih u.length (by omega)).bool (Nat.le_refl _) hu hu' (r := .rp :: r) (r' := .rp :: r') (by simp [NoConn])
        (by simp [NoConn]) e
      simp [this.1, this.2]

theorem det_seq {n : Nat} (ih : ∀ m, m < n → Det α m) {o : CTok α} {t t' r r' : List (CTok α)} {cs cs' : List (Cond α)}
    (hl : t.length ≤ n) (h : ReadsSeq o t cs) (h' : ReadsSeq o t' cs') (hr : r.head? ≠ some o) (hr' : r'.head? ≠ some o)
    (e : t ++ r = t' ++ r') : t = t' ∧ cs = cs' := by
  obtain ⟨c, ds, u, w, rfl, rfl, h1, h2⟩ := seq_split h
  obtain ⟨c', ds', u', w', rfl, rfl, h1', h2'⟩ := seq_split h'
  rw [List.append_assoc, List.append_assoc] at e
  rw [List.length_append] at hl
  obtain ⟨rfl, rfl⟩ := det_op ih (by omega) h1 h1' e
  have e := List.append_cancel_left e
  rcases h2 with ⟨rfl, rfl⟩ | ⟨x, rfl, h2⟩
  · rcases h2' with ⟨rfl, rfl⟩ | ⟨x', rfl, h2'⟩
    · exact ⟨rfl, rfl⟩
    · rw [List.nil_append] at e; rw [e] at hr; simp at hr
  · rcases h2' with ⟨rfl, rfl⟩ | ⟨x', rfl, h2'⟩
    · rw [List.nil_append] at e; rw [← e] at hr'; simp at hr'
    · simp only [List.cons_append, List.cons.injEq, true_and] at e
      rw [List.length_cons] at hl
      obtain ⟨rfl, rfl⟩ := (ih x.length (by omega)).seq (Nat.le_refl _) h2 h2' hr hr' e
      exact ⟨rfl, rfl⟩

/-- The token after the first operand of a sequence of at least two. -/
theorem seq_two {op : CTok α} {ts : List (CTok α)} {cs : List (Cond α)} (h : ReadsSeq op ts cs) (hl : 2 ≤ cs.length) :
    ∃ c t u, ts = t ++ op :: u ∧ ReadsOp t c := by
  obtain ⟨c, ds, u, w, rfl, rfl, h1, h2⟩ := seq_split h
  rcases h2 with ⟨rfl, rfl⟩ | ⟨x, rfl, h2⟩
  · simp at hl
  · exact ⟨c, u, x, rfl, h1⟩

theorem det (n : Nat) : Det α n := by
  induction n using Nat.strongRecOn with
  | _ n ih =>
    -- a sequence of at least two against something with a different continuation
    have two : ∀ {o : CTok α} {t t' r r' : List (CTok α)} {cs : List (Cond α)} {c' : Cond α}, t.length ≤ n → ReadsSeq o t cs →
        2 ≤ cs.length → ReadsOp t' c' → t ++ r = t' ++ r' → r'.head? = some o := by
      intro o t t' r r' cs c' hl h h2 h' e
      obtain ⟨c, u, w, rfl, h1⟩ := seq_two h h2
      rw [List.append_assoc] at e
      rw [List.length_append] at hl
      obtain ⟨rfl, _⟩ := det_op ih (by omega) h1 h' e
      have := List.append_cancel_left e
      rw [← this]; rfl
    have two' : ∀ {t r : List (CTok α)} {cs : List (Cond α)} {o : CTok α}, ReadsSeq o t cs → 2 ≤ cs.length →
        ∃ c u w, ReadsOp u c ∧ t ++ r = u ++ w ∧ w.head? = some o := by
      intro t r cs o h h2
      obtain ⟨c, u, w, rfl, h1⟩ := seq_two h h2
      exact ⟨c, u, o :: w ++ r, h1, by simp, by simp⟩
    have nn : ∀ {t r t' r' : List (CTok α)} {c : Cond α}, ReadsOp t c → t ++ r ≠ CTok.not :: t' ++ r' := by
      intro t r t' r' c h e
      obtain ⟨x, w, rfl, hx⟩ := op_head h
      simp only [List.cons_append, List.cons.injEq] at e
      exact hx e.1
    have ns : ∀ {o : CTok α} {t r t' r' : List (CTok α)} {cs : List (Cond α)}, ReadsSeq o t cs → t ++ r ≠ CTok.not :: t' ++ r' := by
      intro o t r t' r' cs h e
      obtain ⟨c, ds, u, w, rfl, rfl, h1, h2⟩ := seq_split h
      rw [List.append_assoc] at e
      exact nn h1 e
    refine ⟨det_op ih, det_seq ih, ?_⟩
    intro t t' r r' c c' hl h h' hr hr' e
    cases h with
    | and h h2 =>
      cases h' with
      | and h' h2' =>
        obtain ⟨rfl, rfl⟩ := det_seq ih hl h h' hr.1 hr'.1 e
        exact ⟨rfl, rfl⟩
      | or h' h2' =>
        obtain ⟨d, u, w, h3, h4, h5⟩ := two' (r := r') h' h2'
        have := two hl h h2 h3 (e.trans h4)
        rw [h5] at this; cases this
      | not h' => exact absurd e (ns h)
      | op h' => exact absurd (two hl h h2 h' e) hr'.1
    | or h h2 =>
      cases h' with
      | or h' h2' =>
        obtain ⟨rfl, rfl⟩ := det_seq ih hl h h' hr.2 hr'.2 e
        exact ⟨rfl, rfl⟩
      | and h' h2' =>
        obtain ⟨d, u, w, h3, h4, h5⟩ := two' (r := r') h' h2'
        have := two hl h h2 h3 (e.trans h4)
        rw [h5] at this; cases this
      | not h' => exact absurd e (ns h)
      | op h' => exact absurd (two hl h h2 h' e) hr'.2
    | @not u _ h =>
      cases h' with
      | and h' h2' => exact absurd e.symm (ns h')
      | or h' h2' => exact absurd e.symm (ns h')
      | not h' =>
        simp only [List.cons_append, List.cons.injEq, true_and] at e
        rw [List.length_cons] at hl
        obtain ⟨rfl, rfl⟩ := det_op ih (by omega) h h' e
        exact ⟨rfl, rfl⟩
      | op h' => exact absurd e.symm (nn h')
    | op h =>
      cases h' with
      | and h' h2' =>
        obtain ⟨d, u, w, h3, h4, h5⟩ := two' (r := r') h' h2'
        obtain ⟨rfl, rfl⟩ := det_op ih hl h h3 (e.trans h4)
        have := List.append_cancel_left (e.trans h4)
        subst this
        exact absurd h5 hr.1
      | or h' h2' =>
        obtain ⟨d, u, w, h3, h4, h5⟩ := two' (r := r') h' h2'
        obtain ⟨rfl, rfl⟩ := det_op ih hl h h3 (e.trans h4)
        have := List.append_cancel_left (e.trans h4)
        subst this
        exact absurd h5 hr.2
      | not h' => exact absurd e (nn h)
      | op h' => exact det_op ih hl h h' e

/-- A token list has at most one reading. -/
theorem reads_unique {ts : List (CTok α)} {c c' : Cond α} (h : Reads ts c) (h' : Reads ts c') : c = c' :=
  ((det ts.length).bool (Nat.le_refl _) h h' (r := []) (r' := []) (by simp [NoConn]) (by simp [NoConn]) rfl).2

end Afmt
