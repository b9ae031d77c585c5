import Verif.SoqlCond
import Verif.Gram.Final
import Verif.Gram.C6

/-!
# What conditions of SOQL queries print (lemmas for C41)
-/

namespace Afmt
open Prog hiding items itemss
open Gram

/-! ### What is printed, as tokens -/

/-- The connective of a condition. -/
def Cond.conn {α : Type} : Cond α → Option (CTok α)
  | .cmp _ => none
  | .and _ => some .and
  | .or _ => some .or
  | .not _ => some .not

/-- Parentheses around an operand with another connective. -/
def wrapTok {α : Type} (same : Bool) (ts : List (CTok α)) : List (CTok α) := if same then ts else .lp :: (ts ++ [.rp])

/-- The operand is printed without parentheses. -/
def bareAnd {α : Type} : Cond α → Bool
  | .cmp _ => true
  | .and _ => true
  | _ => false
/-- The operand is printed without parentheses. -/
def bareOr {α : Type} : Cond α → Bool
  | .cmp _ => true
  | .or _ => true
  | _ => false
/-- The operand is printed without parentheses. -/
def bareNot {α : Type} : Cond α → Bool
  | .cmp _ => true
  | .not _ => true
  | _ => false

mutual
/-- Printed tokens. -/
def prTok {α : Type} : Cond α → List (CTok α)
  | .cmp a => [.atom a]
  | .and cs => prAnds cs
  | .or cs => prOrs cs
  | .not c => .not :: wrapTok (bareNot c) (prTok c)
/-- Printed operands of `AND`. -/
def prAnds {α : Type} : List (Cond α) → List (CTok α)
  | [] => []
  | c :: cs => wrapTok (bareAnd c) (prTok c) ++ prAnds' cs
/-- Further operands of `AND`. -/
def prAnds' {α : Type} : List (Cond α) → List (CTok α)
  | [] => []
  | c :: cs => .and :: (wrapTok (bareAnd c) (prTok c) ++ prAnds' cs)
/-- Printed operands of `OR`. -/
def prOrs {α : Type} : List (Cond α) → List (CTok α)
  | [] => []
  | c :: cs => wrapTok (bareOr c) (prTok c) ++ prOrs' cs
/-- Further operands of `OR`. -/
def prOrs' {α : Type} : List (Cond α) → List (CTok α)
  | [] => []
  | c :: cs => .or :: (wrapTok (bareOr c) (prTok c) ++ prOrs' cs)
end

mutual
/-- Connectives have at least two operands and a negation is not directly negated. -/
def Cond.Ok {α : Type} : Cond α → Prop
  | .cmp _ => True
  | .and cs => 2 ≤ cs.length ∧ Cond.Oks cs
  | .or cs => 2 ≤ cs.length ∧ Cond.Oks cs
  | .not c => (∀ d, c ≠ .not d) ∧ Cond.Ok c
/-- `Cond.Ok` for all. -/
def Cond.Oks {α : Type} : List (Cond α) → Prop
  | [] => True
  | c :: cs => Cond.Ok c ∧ Cond.Oks cs
end

section
variable {α : Type}

theorem seq_append {op : CTok α} {ts ts' : List (CTok α)} {cs cs' : List (Cond α)} (h : ReadsSeq op ts cs)
    (h' : ReadsSeq op ts' cs') : ReadsSeq op (ts ++ op :: ts') (cs ++ cs') := by
  induction cs generalizing ts with
  | nil => cases h
  | cons c cs ih =>
    cases h with
    | one h => exact .cons h h'
    | cons h1 h2 =>
      have := ReadsSeq.cons (op := op) h1 (ih h2)
      simpa using this

theorem evalAll_append (v : α → Bool) (cs ds : List (Cond α)) :
    Cond.evalAll v (cs ++ ds) = (Cond.evalAll v cs && Cond.evalAll v ds) := by
  induction cs with
  | nil => simp [Cond.evalAll]
  | cons c cs ih => simp [Cond.evalAll, ih, Bool.and_assoc]

theorem evalAny_append (v : α → Bool) (cs ds : List (Cond α)) :
    Cond.evalAny v (cs ++ ds) = (Cond.evalAny v cs || Cond.evalAny v ds) := by
  induction cs with
  | nil => simp [Cond.evalAny]
  | cons c cs ih => simp [Cond.evalAny, ih, Bool.or_assoc]

mutual
/-- The printed tokens can be read, and as a condition with the same meaning. -/
theorem reads_pr : ∀ c : Cond α, c.Ok → ∃ c', Reads (prTok c) c' ∧ ∀ v, Cond.eval v c' = Cond.eval v c
  | .cmp a, _ => ⟨.cmp a, .op .cmp, fun _ => rfl⟩
  | .and cs, h => by
    obtain ⟨cs', h1, h2, h3⟩ := reads_ands cs h.2 (by intro e; simp [e, Cond.Ok] at h)
    exact ⟨.and cs', .and h1 (Nat.le_trans h.1 h2), fun v => by simp only [Cond.eval]; exact h3 v⟩
  | .or cs, h => by
    obtain ⟨cs', h1, h2, h3⟩ := reads_ors cs h.2 (by intro e; simp [e, Cond.Ok] at h)
    exact ⟨.or cs', .or h1 (Nat.le_trans h.1 h2), fun v => by simp only [Cond.eval]; exact h3 v⟩
  | .not (.cmp a), _ => ⟨.not (.cmp a), .not .cmp, fun _ => rfl⟩
  | .not (.not d), h => absurd rfl (h.1 d)
  | .not (.and cs), h => by
    obtain ⟨c', h1, h2⟩ := reads_pr (.and cs) h.2
    exact ⟨.not c', .not (.paren h1), fun v => by rw [Cond.eval, Cond.eval, h2]⟩
  | .not (.or cs), h => by
    obtain ⟨c', h1, h2⟩ := reads_pr (.or cs) h.2
    exact ⟨.not c', .not (.paren h1), fun v => by rw [Cond.eval, Cond.eval, h2]⟩
theorem reads_ands : ∀ cs : List (Cond α), Cond.Oks cs → cs ≠ [] →
    ∃ cs', ReadsSeq .and (prAnds cs) cs' ∧ cs.length ≤ cs'.length ∧ ∀ v, Cond.evalAll v cs' = Cond.evalAll v cs
  | [], _, h => absurd rfl h
  | c :: cs, h, _ => by
    have hc : ∃ ds, ReadsSeq .and (wrapTok (bareAnd c) (prTok c)) ds ∧ 1 ≤ ds.length ∧ ∀ v, Cond.evalAll v ds = Cond.eval v c := by
      match c, h.1 with
      | .cmp a, _ => exact ⟨[.cmp a], .one .cmp, by simp, fun v => by simp [Cond.evalAll, Cond.eval]⟩
      | .and ds, ho =>
        obtain ⟨ds', h1, h2, h3⟩ := reads_ands ds ho.2 (by intro e; simp [e, Cond.Ok] at ho)
        exact ⟨ds', h1, by have := ho.1; omega, fun v => by rw [h3]; simp [Cond.eval]⟩
      | .or ds, ho =>
        obtain ⟨c', h1, h2⟩ := reads_pr (.or ds) ho
        exact ⟨[c'], .one (.paren h1), by simp, fun v => by simp [Cond.evalAll, h2]⟩
      | .not d, ho =>
        obtain ⟨c', h1, h2⟩ := reads_pr (.not d) ho
        exact ⟨[c'], .one (.paren h1), by simp, fun v => by simp [Cond.evalAll, h2]⟩
    obtain ⟨ds, h1, h2, h3⟩ := hc
    cases cs with
    | nil =>
      refine ⟨ds, ?_, by simpa using h2, fun v => by simp [Cond.evalAll, h3]⟩
      simpa [prAnds, prAnds'] using h1
    | cons d cs =>
      obtain ⟨es, g1, g2, g3⟩ := reads_ands (d :: cs) h.2 (by simp)
      refine ⟨ds ++ es, ?_, ?_, fun v => ?_⟩
      · have := seq_append h1 g1
        simpa only [prAnds, prAnds'] using this
      · simp only [List.length_append, List.length_cons] at g2 ⊢; omega
      · rw [evalAll_append, h3, g3]; simp [Cond.evalAll]
theorem reads_ors : ∀ cs : List (Cond α), Cond.Oks cs → cs ≠ [] →
    ∃ cs', ReadsSeq .or (prOrs cs) cs' ∧ cs.length ≤ cs'.length ∧ ∀ v, Cond.evalAny v cs' = Cond.evalAny v cs
  | [], _, h => absurd rfl h
  | c :: cs, h, _ => by
    have hc : ∃ ds, ReadsSeq .or (wrapTok (bareOr c) (prTok c)) ds ∧ 1 ≤ ds.length ∧ ∀ v, Cond.evalAny v ds = Cond.eval v c := by
      match c, h.1 with
      | .cmp a, _ => exact ⟨[.cmp a], .one .cmp, by simp, fun v => by simp [Cond.evalAny, Cond.eval]⟩
      | .or ds, ho =>
        obtain ⟨ds', h1, h2, h3⟩ := reads_ors ds ho.2 (by intro e; simp [e, Cond.Ok] at ho)
        exact ⟨ds', h1, by have := ho.1; omega, fun v => by rw [h3]; simp [Cond.eval]⟩
      | .and ds, ho =>
        obtain ⟨c', h1, h2⟩ := reads_pr (.and ds) ho
        exact ⟨[c'], .one (.paren h1), by simp, fun v => by simp [Cond.evalAny, h2]⟩
      | .not d, ho =>
        obtain ⟨c', h1, h2⟩ := reads_pr (.not d) ho
        exact ⟨[c'], .one (.paren h1), by simp, fun v => by simp [Cond.evalAny, h2]⟩
    obtain ⟨ds, h1, h2, h3⟩ := hc
    cases cs with
    | nil =>
      refine ⟨ds, ?_, by simpa using h2, fun v => by simp [Cond.evalAny, h3]⟩
      simpa [prOrs, prOrs'] using h1
    | cons d cs =>
      obtain ⟨es, g1, g2, g3⟩ := reads_ors (d :: cs) h.2 (by simp)
      refine ⟨ds ++ es, ?_, ?_, fun v => ?_⟩
      · have := seq_append h1 g1
        simpa only [prOrs, prOrs'] using this
      · simp only [List.length_append, List.length_cons] at g2 ⊢; omega
      · rw [evalAny_append, h3, g3]; simp [Cond.evalAny]
end
end

/-! ### Conditions in a syntax tree -/

/-- A connective in a tree: no comments inside it that replace its content, and no `,` or `;` behind it. -/
def CalmConn (cm : CMap) (l : Loc) : Prop :=
  (∀ b, cm.get? l.id = some b → b.dangling = []) ∧
  ∀ s, l.rightSiblings.find? (fun s => !s.extra) = some s → s.kind ≠ "," ∧ s.kind ≠ ";"

mutual
/-- The node at the location is the condition, whose comparisons are given by their locations.  Parentheses are tokens
and do not show. -/
def CondAt (cm : CMap) : Cond Loc → Loc → Prop
  | .cmp x, l => x = l ∧ l.kind = "comparison_expression"
  | .and cs, l => l.kind = "and_expression" ∧ CalmConn cm l ∧ CondsAt cm cs l.childrenVec
  | .or cs, l => l.kind = "or_expression" ∧ CalmConn cm l ∧ CondsAt cm cs l.childrenVec
  | .not c, l => l.kind = "not_expression" ∧ CalmConn cm l ∧ ∃ x, l.childrenVec = [x] ∧ CondAt cm c x
/-- `CondAt` for lists. -/
def CondsAt (cm : CMap) : List (Cond Loc) → List Loc → Prop
  | [], [] => True
  | c :: cs, x :: xs => CondAt cm c x ∧ CondsAt cm cs xs
  | _, _ => False
end

/-- The pieces of code a program prints. -/
def codeRes : R (List Item × List Comment) → Option (List Str)
  | .ok (is, _) => some (codeOf is)
  | .error _ => none

/-- The pieces of code are those of the tokens; a comparison is whatever its own constructor prints. -/
inductive Shown (cfg : Cfg) : List (CTok Loc) → List Str → Prop
  | nil : Shown cfg [] []
  | lp {ts ss} : Shown cfg ts ss → Shown cfg (.lp :: ts) ("(".toList :: ss)
  | rp {ts ss} : Shown cfg ts ss → Shown cfg (.rp :: ts) (")".toList :: ss)
  | and {ts ss} : Shown cfg ts ss → Shown cfg (.and :: ts) ("AND ".toList :: ss)
  | or {ts ss} : Shown cfg ts ss → Shown cfg (.or :: ts) ("OR ".toList :: ss)
  | not {ts ss} : Shown cfg ts ss → Shown cfg (.not :: ts) ("NOT ".toList :: ss)
  | atom {x fuel p s ts ss} : Prog.new cfg fuel .comparisonExpression x = .ok p → codeRes (p.items cfg.cm) = some s →
      Shown cfg ts ss → Shown cfg (.atom x :: ts) (s ++ ss)

/-- `codeRes` when line breaks between members are kept. -/
def codeRes2 : Res2 → Option (List Str)
  | .ok (is, _) => some (codeOf (plainItems is))
  | .error _ => none

theorem codeRes_eq (cm : CMap) (p : Prog) : codeRes (p.items cm) = codeRes2 (items cm p) := by
  rw [items_plain]; cases items cm p <;> rfl

section
variable {cfg : Cfg}

theorem Shown.append {ts ts' : List (CTok Loc)} {ss ss' : List Str} (h : Shown cfg ts ss) (h' : Shown cfg ts' ss') :
    Shown cfg (ts ++ ts') (ss ++ ss') := by
  induction h with
  | nil => exact h'
  | lp _ ih => exact .lp ih
  | rp _ ih => exact .rp ih
  | and _ ih => exact .and ih
  | or _ ih => exact .or ih
  | not _ ih => exact .not ih
  | atom h1 h2 _ ih => rw [List.append_assoc]; exact .atom h1 h2 ih

theorem codeRes2_seq {x y : Res2} {ss : List Str} (h : codeRes2 (seqR x y) = some ss) :
    ∃ a b, codeRes2 x = some a ∧ codeRes2 y = some b ∧ ss = a ++ b := by
  cases x with
  | error e => cases h
  | ok x =>
    cases y with
    | error e => cases h
    | ok y =>
      obtain ⟨is, lg⟩ := x
      obtain ⟨is', lg'⟩ := y
      refine ⟨_, _, rfl, rfl, ?_⟩
      simp only [seqR, codeRes2, Option.some.injEq] at h
      rw [← h]
      simp [codeOf, List.filterMap_append]

theorem codeRes2_unit {ss : List Str} (h : codeRes2 unit = some ss) : ss = [] := by
  simp only [codeRes2, unit, Option.some.injEq] at h; rw [← h]; rfl

theorem codeRes2_txt {s : Str} {ss : List Str} (hs : ink s ≠ []) (h : codeRes2 (items cm (.txt s)) = some ss) : ss = [s] := by
  rw [items] at h
  simp only [codeItem, hs, if_false, codeRes2, Option.some.injEq] at h
  rw [← h]; rfl

theorem codeRes2_comments {x : Res2} {ss : List Str} (hx : ∀ is lg, x = .ok (is, lg) → codeOf (plainItems is) = [])
    (h : codeRes2 x = some ss) : ss = [] := by
  cases x with
  | error e => cases h
  | ok x =>
    obtain ⟨is, lg⟩ := x
    have := hx is lg rfl
    simp only [codeRes2, Option.some.injEq] at h
    rw [← h, this]

theorem punc_none {l : Loc} (h : ∀ s, l.rightSiblings.find? (fun s => !s.extra) = some s → s.kind ≠ "," ∧ s.kind ≠ ";") :
    Punc.from l = none := by
  unfold Punc.from
  generalize l.rightSiblings = ss at h
  induction ss with
  | nil => rfl
  | cons s ss ih =>
    rw [Punc.search]
    by_cases he : s.extra = true
    · rw [if_pos he]; exact ih (fun x hx => h x (by simp [he, hx]))
    · rw [if_neg he]
      have := h s (by simp [he])
      simp [isPunctuationKind, this]

theorem codeRes2_bwcp {l : Loc} {ms : List Prog} {ss : List Str} (hc : CalmConn cfg.cm l)
    (h : codeRes2 (items cfg.cm (New.bwcp l ms)) = some ss) : codeRes2 (itemss cfg.cm ms) = some ss := by
  rw [New.bwcp, punc_none hc.2, withCommentsAndPunc] at h
  simp only [punctOpt, List.append_nil, items_concat, itemss_cons, itemss_nil, seqR_unit_right] at h
  obtain ⟨a, r, h1, h2, rfl⟩ := codeRes2_seq h
  obtain ⟨b, c, h3, h4, rfl⟩ := codeRes2_seq h2
  have comm : ∀ (cs : List Comment), codeOf (plainItems ((commentItems cs).map .inl)) = [] := by
    intro cs; simp [codeOf, plainItems, commentItems, List.filterMap_map, Function.comp_def]
  have ea : a = [] := by
    refine codeRes2_comments ?_ h1
    intro is lg e
    rw [items] at e
    split at e
    · cases e; exact comm _
    · cases e
  have ec : c = [] := by
    refine codeRes2_comments ?_ h4
    intro is lg e
    rw [items] at e
    split at e
    · split at e
      · rw [items, itemss] at e; cases e; rfl
      · rw [items] at e
        split at e
        · cases e; exact comm _
        · cases e
    · cases e
  rw [items] at h3
  split at h3
  · rename_i b' hb
    have hd : b'.dangling = [] := by
      refine hc.1 b' ?_
      unfold getBucket at hb
      cases hg : cfg.cm.get? l.id with
      | none => rw [hg] at hb; cases hb
      | some x => rw [hg] at hb; cases hb; rfl
    simp only [hd, ne_eq, not_true_eq_false, if_false, items_concat] at h3
    rw [ea, ec, List.nil_append, List.append_nil]
    exact h3
  · cases h3

/-- The connective at the node of a condition. -/
def condOp {α : Type} : Cond α → Option String
  | .cmp _ => none
  | .and _ => some "AND"
  | .or _ => some "OR"
  | .not _ => some "NOT"

theorem condAt_op {c : Cond Loc} {l : Loc} (h : CondAt cfg.cm c l) : New.boolOperator l = condOp c := by
  cases c <;> simp only [CondAt] at h <;> simp [New.boolOperator, h, condOp]

/-- What an operand prints, given what the condition prints. -/
theorem show_op {c : Cond Loc} {l : Loc} {fuel : Nat} {op : String} {p : Prog} {ss : List Str} (hc : CondAt cfg.cm c l)
    (ih : ∀ p ss, Prog.new cfg fuel .booleanExpression l = .ok p → codeRes2 (items cfg.cm p) = some ss → Shown cfg (prTok c) ss)
    (hn : New.conditionExpression (Prog.new cfg fuel) (some op) l = .ok p) (hs : codeRes2 (items cfg.cm p) = some ss) :
    Shown cfg (wrapTok ((condOp c).all (· == op)) (prTok c)) ss := by
  unfold New.conditionExpression at hn
  split at hn
  · rename_i hk
    cases c with
    | cmp x =>
      simp only [CondAt] at hc
      have := Shown.atom (cfg := cfg) (x := l) hn ((codeRes_eq _ _).trans hs) .nil
      rw [hc.1]
      simpa [condOp, wrapTok, prTok] using this
    | and cs => rw [CondAt, hk] at hc; exact absurd hc.1 (by decide)
    | or cs => rw [CondAt, hk] at hc; exact absurd hc.1 (by decide)
    | not c => rw [CondAt, hk] at hc; exact absurd hc.1 (by decide)
  · rename_i hk
    cases hb : Prog.new cfg fuel .booleanExpression l with
    | error e => rw [hb] at hn; cases hn
    | ok d =>
      rw [hb] at hn
      simp only [bind, Except.bind, Except.ok.injEq] at hn
      rw [condAt_op hc] at hn
      have hop : ∃ o, condOp c = some o := by
        cases c with
        | cmp x => simp only [CondAt] at hc; exact absurd hc.2 hk
        | _ => exact ⟨_, rfl⟩
      obtain ⟨o, ho⟩ := hop
      rw [ho] at hn ⊢
      simp only [Option.all_some]
      by_cases e : o = op
      · have e1 : New.shouldParenthesize (some op) (some o) = false := by simp [New.shouldParenthesize, e]
        have e2 : (o == op) = true := by simp [e]
        rw [e1] at hn
        rw [e2]
        simp only [Bool.false_eq_true, if_false] at hn
        rw [← hn] at hs
        exact ih d ss hb hs
      · have e1 : New.shouldParenthesize (some op) (some o) = true := by
          simpa [New.shouldParenthesize] using fun h => e h.symm
        have e2 : (o == op) = false := by simpa using e
        rw [e1] at hn
        rw [e2]
        simp only [if_true] at hn
        rw [← hn, items_concat, itemss_cons, itemss_cons, itemss_one] at hs
        obtain ⟨a, r, h1, h2, rfl⟩ := codeRes2_seq hs
        obtain ⟨b, c', h3, h4, rfl⟩ := codeRes2_seq h2
        have ea := codeRes2_txt (s := "(".toList) (by decide) h1
        have ec := codeRes2_txt (s := ")".toList) (by decide) h4
        rw [ea, ec]
        exact .lp ((ih d b hb h3).append (.rp .nil))

theorem codeRes2_sep {op : String} {ss : List Str} (ho : ink op.toList ≠ [])
    (h : codeRes2 (itemss cfg.cm (Ins.before .softline op).progs) = some ss) : ss = [op.toList] := by
  simp only [Ins.before, Ins.progs, opt, optT, List.append_nil, List.singleton_append, itemss_cons, itemss_nil, items_softline,
    seqR_unit, seqR_unit_right] at h
  exact codeRes2_txt ho h

mutual
/-- A condition prints its tokens. -/
theorem show_cond : ∀ (c : Cond Loc) (l : Loc) (fuel : Nat) (p : Prog) (ss : List Str), CondAt cfg.cm c l →
    Prog.new cfg fuel .booleanExpression l = .ok p → codeRes2 (items cfg.cm p) = some ss → Shown cfg (prTok c) ss
  | c, l, 0, p, ss, hc, hn, hs => by cases hn
  | .cmp x, l, fuel + 1, p, ss, hc, hn, hs => by
    simp only [CondAt] at hc
    change New.booleanExpression (Prog.new cfg fuel) l = _ at hn
    simp only [New.booleanExpression, hc.2, String.reduceEq, if_false, if_true] at hn
    rw [hc.1]
    have := Shown.atom (cfg := cfg) (x := l) hn ((codeRes_eq _ _).trans hs) .nil
    simpa [prTok] using this
  | .and cs, l, 1, p, ss, hc, hn, hs => by
    simp only [CondAt] at hc
    change New.booleanExpression (Prog.new cfg 0) l = _ at hn
    simp only [New.booleanExpression, hc.1, if_true] at hn
    cases hn
  | .or cs, l, 1, p, ss, hc, hn, hs => by
    simp only [CondAt] at hc
    change New.booleanExpression (Prog.new cfg 0) l = _ at hn
    simp only [New.booleanExpression, hc.1, String.reduceEq, if_false, if_true] at hn
    cases hn
  | .not cs, l, 1, p, ss, hc, hn, hs => by
    simp only [CondAt] at hc
    change New.booleanExpression (Prog.new cfg 0) l = _ at hn
    simp only [New.booleanExpression, hc.1, String.reduceEq, if_false, if_true] at hn
    cases hn
  | .and cs, l, fuel + 2, p, ss, hc, hn, hs => by
    simp only [CondAt] at hc
    obtain ⟨hk, hcalm, hcs⟩ := hc
    change New.booleanExpression (Prog.new cfg (fuel + 1)) l = _ at hn
    simp only [New.booleanExpression, hk, if_true] at hn
    change New.andExpression (Prog.new cfg fuel) l = _ at hn
    simp only [New.andExpression, assertCheck, hk, beq_self_eq_true, if_true, bind, Except.bind] at hn
    cases hm : mapR (New.conditionExpression (Prog.new cfg fuel) (some "AND")) l.childrenVec with
    | error e => rw [hm] at hn; cases hn
    | ok es =>
      rw [hm] at hn
      simp only [Except.ok.injEq] at hn
      rw [← hn] at hs
      have hs := codeRes2_bwcp hcalm hs
      rw [itemss_one] at hs
      exact show_ands cs l.childrenVec fuel es ss hcs hm hs
  | .or cs, l, fuel + 2, p, ss, hc, hn, hs => by
    simp only [CondAt] at hc
    obtain ⟨hk, hcalm, hcs⟩ := hc
    change New.booleanExpression (Prog.new cfg (fuel + 1)) l = _ at hn
    simp only [New.booleanExpression, hk, String.reduceEq, if_false, if_true] at hn
    change New.orExpression (Prog.new cfg fuel) l = _ at hn
    simp only [New.orExpression, assertCheck, hk, beq_self_eq_true, if_true, bind, Except.bind] at hn
    cases hm : mapR (New.conditionExpression (Prog.new cfg fuel) (some "OR")) l.childrenVec with
    | error e => rw [hm] at hn; cases hn
    | ok es =>
      rw [hm] at hn
      simp only [Except.ok.injEq] at hn
      rw [← hn] at hs
      have hs := codeRes2_bwcp hcalm hs
      rw [itemss_one] at hs
      exact show_ors cs l.childrenVec fuel es ss hcs hm hs
  | .not c, l, fuel + 2, p, ss, hc, hn, hs => by
    simp only [CondAt] at hc
    obtain ⟨hk, hcalm, x, hx, hcx⟩ := hc
    change New.booleanExpression (Prog.new cfg (fuel + 1)) l = _ at hn
    simp only [New.booleanExpression, hk, String.reduceEq, if_false, if_true] at hn
    change New.notExpression (Prog.new cfg fuel) l = _ at hn
    have hf : l.firstC = .ok x := by
      have : l.tryFirstC = some x := by
        unfold Loc.tryFirstC
        rw [← List.head?_filter]
        change l.childrenVec.head? = _
        rw [hx]; rfl
      unfold Loc.firstC
      rw [this]
    simp only [New.notExpression, assertCheck, hk, beq_self_eq_true, if_true, bind, Except.bind, hf] at hn
    cases hm : New.conditionExpression (Prog.new cfg fuel) (some "NOT") x with
    | error e => rw [hm] at hn; cases hn
    | ok e =>
      rw [hm] at hn
      simp only [Except.ok.injEq] at hn
      rw [← hn] at hs
      have hs := codeRes2_bwcp hcalm hs
      rw [itemss_one, items_concat, itemss_cons, itemss_one] at hs
      obtain ⟨a, b, h1, h2, rfl⟩ := codeRes2_seq hs
      have ea := codeRes2_txt (s := "NOT ".toList) (by decide) h1
      rw [ea]
      have := show_op hcx (fun p ss => show_cond c x fuel p ss hcx) hm h2
      rw [prTok]
      refine .not ?_
      have e : (condOp c).all (· == "NOT") = bareNot c := by cases c <;> rfl
      rw [e] at this
      exact this
theorem show_ands : ∀ (cs : List (Cond Loc)) (xs : List Loc) (fuel : Nat) (ps : List Prog) (ss : List Str), CondsAt cfg.cm cs xs →
    mapR (New.conditionExpression (Prog.new cfg fuel) (some "AND")) xs = .ok ps →
    codeRes2 (items cfg.cm (Prog.intersperse ps (.before .softline "AND "))) = some ss → Shown cfg (prAnds cs) ss
  | [], [], fuel, ps, ss, _, hm, hs => by
    cases hm
    rw [Prog.intersperse, items_nil] at hs
    rw [codeRes2_unit hs]; exact .nil
  | c :: cs, x :: xs, fuel, ps, ss, hc, hm, hs => by
    simp only [CondsAt] at hc
    obtain ⟨hx, hxs⟩ := hc
    simp only [mapR] at hm
    cases h1 : New.conditionExpression (Prog.new cfg fuel) (some "AND") x with
    | error e => rw [h1] at hm; cases hm
    | ok q =>
      rw [h1] at hm
      cases h2 : mapR (New.conditionExpression (Prog.new cfg fuel) (some "AND")) xs with
      | error e => rw [h2] at hm; cases hm
      | ok qs =>
        rw [h2] at hm
        simp only [Except.ok.injEq] at hm
        rw [← hm, items_inter] at hs
        have e : (condOp c).all (· == "AND") = bareAnd c := by cases c <;> rfl
        have op : ∀ ss, codeRes2 (items cfg.cm q) = some ss → Shown cfg (wrapTok (bareAnd c) (prTok c)) ss := by
          intro ss h
          have := show_op hx (fun p ss => show_cond c x fuel p ss hx) h1 h
          rw [e] at this
          exact this
        match cs, xs, qs, hxs, h2, hs with
        | [], [], qs, _, h2, hs =>
          cases h2
          rw [Prog.intersperseParts, itemss_one] at hs
          simpa [prAnds, prAnds'] using op ss hs
        | d :: cs, y :: ys, [], hxs, h2, hs =>
          simp only [mapR] at h2
          split at h2 <;> try cases h2
          split at h2 <;> cases h2
        | d :: cs, y :: ys, r :: qs, hxs, h2, hs =>
          rw [Prog.intersperseParts.eq_3 _ _ _ (by simp), itemss_cons, itemss_append] at hs
          obtain ⟨a, b, g1, g2, rfl⟩ := codeRes2_seq hs
          obtain ⟨b, b', g3, g4, rfl⟩ := codeRes2_seq g2
          rw [codeRes2_sep (by decide) g3]
          rw [← items_inter] at g4
          have ih := show_ands (d :: cs) (y :: ys) fuel (r :: qs) b' hxs h2 g4
          rw [prAnds, prAnds']
          exact (op a g1).append (.and ih)
theorem show_ors : ∀ (cs : List (Cond Loc)) (xs : List Loc) (fuel : Nat) (ps : List Prog) (ss : List Str), CondsAt cfg.cm cs xs →
    mapR (New.conditionExpression (Prog.new cfg fuel) (some "OR")) xs = .ok ps →
    codeRes2 (items cfg.cm (Prog.intersperse ps (.before .softline "OR "))) = some ss → Shown cfg (prOrs cs) ss
  | [], [], fuel, ps, ss, _, hm, hs => by
    cases hm
    rw [Prog.intersperse, items_nil] at hs
    rw [codeRes2_unit hs]; exact .nil
  | c :: cs, x :: xs, fuel, ps, ss, hc, hm, hs => by
    simp only [CondsAt] at hc
    obtain ⟨hx, hxs⟩ := hc
    simp only [mapR] at hm
    cases h1 : New.conditionExpression (Prog.new cfg fuel) (some "OR") x with
    | error e => rw [h1] at hm; cases hm
    | ok q =>
      rw [h1] at hm
      cases h2 : mapR (New.conditionExpression (Prog.new cfg fuel) (some "OR")) xs with
      | error e => rw [h2] at hm; cases hm
      | ok qs =>
        rw [h2] at hm
        simp only [Except.ok.injEq] at hm
        rw [← hm, items_inter] at hs
        have e : (condOp c).all (· == "OR") = bareOr c := by cases c <;> rfl
        have op : ∀ ss, codeRes2 (items cfg.cm q) = some ss → Shown cfg (wrapTok (bareOr c) (prTok c)) ss := by
          intro ss h
          have := show_op hx (fun p ss => show_cond c x fuel p ss hx) h1 h
          rw [e] at this
          exact this
        match cs, xs, qs, hxs, h2, hs with
        | [], [], qs, _, h2, hs =>
          cases h2
          rw [Prog.intersperseParts, itemss_one] at hs
          simpa [prOrs, prOrs'] using op ss hs
        | d :: cs, y :: ys, [], hxs, h2, hs =>
          simp only [mapR] at h2
          split at h2 <;> try cases h2
          split at h2 <;> cases h2
        | d :: cs, y :: ys, r :: qs, hxs, h2, hs =>
          rw [Prog.intersperseParts.eq_3 _ _ _ (by simp), itemss_cons, itemss_append] at hs
          obtain ⟨a, b, g1, g2, rfl⟩ := codeRes2_seq hs
          obtain ⟨b, b', g3, g4, rfl⟩ := codeRes2_seq g2
          rw [codeRes2_sep (by decide) g3]
          rw [← items_inter] at g4
          have ih := show_ors (d :: cs) (y :: ys) fuel (r :: qs) b' hxs h2 g4
          rw [prOrs, prOrs']
          exact (op a g1).append (.or ih)
end
end

/-- The comments of an example. -/
def exCfg (n : Node) : Cfg := { cm := (match collect n [] with | .ok cm => cm | .error _ => []), checks := true }

end Afmt
