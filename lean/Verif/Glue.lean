import Verif.SoqlShow

/-!
# Nested unary and update expressions: how their text is read (specification and lemmas for C45)
-/

namespace Afmt
open Prog Gram

/-! ### Specification: reading text with the longest match -/

/-- Operators and punctuation of Apex. -/
def opTokens : List Str := ["=", "==", "===", "!=", "!==", "<>", "<", ">", "<=", ">=", "+", "-", "*", "/", "%", "!", "~", "&", "&&",
  "|", "||", "^", "<<", ">>", ">>>", "++", "--", "+=", "-=", "*=", "/=", "%=", "&=", "|=", "^=", "<<=", ">>=", ">>>=", "=>", "?",
  "?.", "??", ":", ";", ",", ".", "(", ")", "[", "]", "{", "}"].map String.toList

/-- Characters of identifiers. -/
def isWordChar (c : Char) : Bool := c.isAlphanum || c == '_'

/-- The text is read as these tokens: always the longest possible operator, or the longest possible word. -/
inductive Lexes : Str → List Str → Prop
  | nil : Lexes [] []
  | op {o r ts} : o ∈ opTokens → (∀ o' ∈ opTokens, o' <+: o ++ r → o'.length ≤ o.length) → Lexes r ts →
      Lexes (o ++ r) (o :: ts)
  | word {w r ts} : w ≠ [] → (∀ c ∈ w, isWordChar c = true) → (∀ c, r.head? = some c → isWordChar c = false) → Lexes r ts →
      Lexes (w ++ r) (w :: ts)

/-- Operators before an operand. -/
def prefixOps : List Str := ["+", "-", "!", "~", "++", "--"].map String.toList
/-- Operators behind an operand. -/
def postfixOps : List Str := ["++", "--"].map String.toList

/-- Nested unary and update expressions around a name. -/
inductive Nest where
  | name (w : Str)
  | pre (op : Str) (n : Nest)
  | post (n : Nest) (op : Str)

/-- The tokens in source order. -/
def Nest.toks : Nest → List Str
  | .name w => [w]
  | .pre op n => op :: n.toks
  | .post n op => n.toks ++ [op]

/-- Operators and names are what they should be. -/
def Nest.Ok : Nest → Prop
  | .name w => w ≠ [] ∧ ∀ c ∈ w, isWordChar c = true
  | .pre op n => op ∈ prefixOps ∧ n.Ok
  | .post n op => op ∈ postfixOps ∧ n.Ok

/-- No single sign is followed by a token that begins with the same sign. -/
def NoGlue : List Str → Prop
  | a :: b :: ts => ¬ ((a = ['+'] ∨ a = ['-']) ∧ b.head? = a.head?) ∧ NoGlue (b :: ts)
  | _ => True

/-! ### Reading -/

theorem op_not_word {o : Str} (h : o ∈ opTokens) : ∃ c r, o = c :: r ∧ isWordChar c = false := by
  have : ∀ o ∈ opTokens, o.head?.all (fun c => !isWordChar c) = true ∧ o ≠ [] := by decide
  have := this o h
  cases o with
  | nil => simp at this
  | cons c r => exact ⟨c, r, rfl, by simpa using this.1⟩

/-- What is left after a token. -/
theorem lexes_tail {a r : Str} {ts : List Str} (h : Lexes (a ++ r) (a :: ts)) : Lexes r ts := by
  generalize e : a ++ r = s at h
  cases h with
  | op _ _ h => rw [List.append_cancel_left e]; exact h
  | word _ _ _ h => rw [List.append_cancel_left e]; exact h

/-- There is only one way to read a text. -/
theorem lexes_unique {s : Str} {ts ts' : List Str} (h : Lexes s ts) (h' : Lexes s ts') : ts = ts' := by
  induction h generalizing ts' with
  | nil =>
    generalize e : ([] : Str) = s at h'
    cases h' with
    | nil => rfl
    | op ho _ _ => obtain ⟨c, r, rfl, _⟩ := op_not_word ho; simp at e
    | word hw _ _ _ => exact absurd (List.append_eq_nil_iff.1 e.symm).1 hw
  | @op o r ts ho hl _ ih =>
    generalize e : o ++ r = s at h'
    cases h' with
    | nil => obtain ⟨c, r, rfl, _⟩ := op_not_word ho; simp at e
    | @op o' r' ts'' ho' hl' ht' =>
      have h1 := hl o' ho' (by rw [e]; exact List.prefix_append _ _)
      have h2 := hl' o ho (by rw [← e]; exact List.prefix_append _ _)
      obtain ⟨e1, e2⟩ := List.append_inj e (by omega)
      subst e1; subst e2
      rw [ih ht']
    | @word w r' ts'' hw hc _ _ =>
      obtain ⟨c, q, rfl, h0⟩ := op_not_word ho
      cases w with
      | nil => exact absurd rfl hw
      | cons d w =>
        simp only [List.cons_append, List.cons.injEq] at e
        have := hc d (by simp)
        rw [← e.1, h0] at this; cases this
  | @word w r ts hw hc hn _ ih =>
    generalize e : w ++ r = s at h'
    cases h' with
    | nil => exact absurd (List.append_eq_nil_iff.1 e).1 hw
    | @op o' r' ts'' ho' hl' ht' =>
      obtain ⟨c, q, rfl, h0⟩ := op_not_word ho'
      cases w with
      | nil => exact absurd rfl hw
      | cons d w =>
        simp only [List.cons_append, List.cons.injEq] at e
        have := hc d (by simp)
        rw [e.1, h0] at this; cases this
    | @word w' r' ts'' hw' hc' hn' ht' =>
      have key : ∀ (w w' : Str) (r r' : Str), (∀ c ∈ w, isWordChar c = true) → (∀ c ∈ w', isWordChar c = true) →
          (∀ c, r.head? = some c → isWordChar c = false) → (∀ c, r'.head? = some c → isWordChar c = false) →
          w ++ r = w' ++ r' → w = w' ∧ r = r' := by
        intro w
        induction w with
        | nil =>
          intro w' r r' _ hc' hn _ e
          cases w' with
          | nil => exact ⟨rfl, e⟩
          | cons d w' =>
            have := hn d (by rw [List.nil_append] at e; rw [e]; rfl)
            rw [hc' d (by simp)] at this; cases this
        | cons c w ih =>
          intro w' r r' hc hc' hn hn' e
          cases w' with
          | nil =>
            have := hn' c (by rw [List.nil_append] at e; rw [← e]; rfl)
            rw [hc c (by simp)] at this; cases this
          | cons d w' =>
            simp only [List.cons_append, List.cons.injEq] at e
            obtain ⟨e1, e2⟩ := ih w' r r' (fun c h => hc c (by simp [h])) (fun c h => hc' c (by simp [h])) hn hn' e.2
            exact ⟨by rw [e.1, e1], e2⟩
      obtain ⟨e1, e2⟩ := key w w' r r' hc hc' hn hn' e
      subst e1; subst e2
      rw [ih ht']

/-- Tokens of nests: prefix operators, a name, postfix operators. -/
inductive NestToks : List Str → Prop
  | name {w ps} : w ≠ [] → (∀ c ∈ w, isWordChar c = true) → (∀ o ∈ ps, o ∈ postfixOps) → NestToks (w :: ps)
  | pre {o ts} : o ∈ prefixOps → NestToks ts → NestToks (o :: ts)

theorem NestToks.snoc {ts : List Str} {o : Str} (h : NestToks ts) (ho : o ∈ postfixOps) : NestToks (ts ++ [o]) := by
  induction h with
  | name h1 h2 h3 =>
    refine .name h1 h2 ?_
    intro x hx
    rcases List.mem_append.1 hx with hx | hx
    · exact h3 x hx
    · rw [List.mem_singleton.1 hx]; exact ho
  | pre h1 _ ih => exact .pre h1 ih

theorem nestToks : ∀ {n : Nest}, n.Ok → NestToks n.toks
  | .name _, h => .name h.1 h.2 (by simp)
  | .pre _ _, h => .pre h.1 (nestToks h.2)
  | .post _ _, h => (nestToks h.2).snoc h.1

theorem noGlue_post : ∀ {w : Str} {ps : List Str}, (w ≠ ['+'] ∧ w ≠ ['-']) → (∀ o ∈ ps, o ∈ postfixOps) → NoGlue (w :: ps)
  | _, [], _, _ => trivial
  | _, o :: ps, hw, h => by
    refine ⟨fun ⟨h1, _⟩ => h1.elim hw.1 hw.2, noGlue_post ?_ (fun o h' => h o (by simp [h']))⟩
    have : ∀ o ∈ postfixOps, o ≠ ['+'] ∧ o ≠ ['-'] := by decide
    exact this o (h o (by simp))

/-- The first characters of the tokens of a nest. -/
def NestHead (c : Char) : Prop := isWordChar c = true ∨ c ∈ ['+', '-', '!', '~']

theorem nestToks_head {ts : List Str} (h : NestToks ts) : ∃ b ts' c, ts = b :: ts' ∧ b.head? = some c ∧ NestHead c := by
  cases h with
  | @name w ps h1 h2 _ =>
    cases w with
    | nil => exact absurd rfl h1
    | cons c w => exact ⟨_, _, c, rfl, rfl, .inl (h2 c (by simp))⟩
  | @pre o ts ho _ =>
    have : ∀ o ∈ prefixOps, ∃ c ∈ ['+', '-', '!', '~'], o.head? = some c := by decide
    obtain ⟨c, hc, e⟩ := this o ho
    exact ⟨_, _, c, rfl, e, .inr hc⟩

/-- Operators that begin with another operator. -/
theorem longer_ops : ∀ o ∈ prefixOps, ∀ o' ∈ opTokens, o <+: o' → o.length < o'.length →
    (o'.drop o.length).head? = some '=' ∨
      ((o = ['+'] ∨ o = ['-']) ∧ (o'.drop o.length).head? = o.head?) := by decide +kernel

/-- An operator is read as it stands unless it is a sign before the same sign. -/
theorem longest {o r : Str} (ho : o ∈ prefixOps) (hr : ∀ c, r.head? = some c → NestHead c)
    (hg : ¬ ((o = ['+'] ∨ o = ['-']) ∧ r.head? = o.head?)) : ∀ o' ∈ opTokens, o' <+: o ++ r → o'.length ≤ o.length := by
  intro o' h' hp
  apply Nat.le_of_not_lt
  intro hlt
  have hoo : o <+: o' := List.prefix_of_prefix_length_le (List.prefix_append o r) hp (Nat.le_of_lt hlt)
  obtain ⟨q, rfl⟩ := hoo
  have hq : q <+: r := (List.prefix_append_right_inj o).1 hp
  have := longer_ops o ho _ h' (List.prefix_append _ _) hlt
  rw [List.drop_left] at this
  have h := this
  obtain ⟨c, hc⟩ : ∃ c, q.head? = some c := by
    cases q with
    | nil => simp at hlt
    | cons c q => exact ⟨c, rfl⟩
  obtain ⟨r', rfl⟩ := hq
  have hrc : (q ++ r').head? = some c := by
    cases q with
    | nil => simp at hc
    | cons d q => simpa using hc
  rcases h with h | ⟨h1, h2⟩
  · rw [hc] at h
    have hn := hr c hrc
    cases h
    rcases hn with hn | hn
    · exact absurd hn (by decide)
    · exact absurd hn (by decide)
  · exact hg ⟨h1, by rw [hrc, ← hc, h2]⟩

theorem prefix_ops_tokens : ∀ o ∈ prefixOps, o ∈ opTokens := by decide
theorem postfix_ops_prefix : ∀ o ∈ postfixOps, o ∈ prefixOps := by decide

theorem flatten_head {b : Str} {ts : List Str} {c : Char} (h : b.head? = some c) : ((b :: ts).flatten).head? = some c := by
  cases b with
  | nil => simp at h
  | cons d b => simpa using h

theorem lexes_post : ∀ {ps : List Str}, (∀ o ∈ ps, o ∈ postfixOps) → Lexes ps.flatten ps
  | [], _ => .nil
  | o :: ps, h => by
    have ho := h o (by simp)
    have hps : ∀ o ∈ ps, o ∈ postfixOps := fun o h' => h o (by simp [h'])
    have hne : o ≠ ['+'] ∧ o ≠ ['-'] := (by decide : ∀ o ∈ postfixOps, o ≠ ['+'] ∧ o ≠ ['-']) o ho
    rw [List.flatten_cons]
    refine .op (prefix_ops_tokens o (postfix_ops_prefix o ho)) (longest (postfix_ops_prefix o ho) ?_ ?_) (lexes_post hps)
    · intro c hc
      cases ps with
      | nil => simp at hc
      | cons b ps =>
        have hb := hps b (by simp)
        have : ∀ o ∈ postfixOps, ∃ c ∈ ['+', '-', '!', '~'], o.head? = some c := by decide
        obtain ⟨d, hd, e⟩ := this b hb
        rw [flatten_head e] at hc
        cases hc
        exact .inr hd
    · exact fun ⟨h, _⟩ => h.elim hne.1 hne.2

/-- The tokens of a nest are read back exactly if no sign stands before the same sign. -/
theorem lexes_nest {ts : List Str} (h : NestToks ts) : Lexes ts.flatten ts ↔ NoGlue ts := by
  induction h with
  | @name w ps h1 h2 h3 =>
    refine ⟨fun _ => noGlue_post ⟨?_, ?_⟩ h3, fun _ => ?_⟩
    · rintro rfl; exact absurd (h2 '+' (by simp)) (by decide)
    · rintro rfl; exact absurd (h2 '-' (by simp)) (by decide)
    · rw [List.flatten_cons]
      refine .word h1 h2 ?_ (lexes_post h3)
      intro c hc
      cases ps with
      | nil => simp at hc
      | cons b ps =>
        have : ∀ o ∈ postfixOps, ∃ c, isWordChar c = false ∧ o.head? = some c := by
          intro o ho
          have : ∀ o ∈ postfixOps, ∃ c ∈ ['+', '-'], isWordChar c = false ∧ o.head? = some c := by decide
          obtain ⟨c, _, h⟩ := this o ho
          exact ⟨c, h⟩
        obtain ⟨d, hd, e⟩ := this b (h3 b (by simp))
        rw [flatten_head e] at hc
        cases hc
        exact hd
  | @pre o ts ho ht ih =>
    obtain ⟨b, ts', c, rfl, hb, hc⟩ := nestToks_head ht
    rw [NoGlue, ← ih, List.flatten_cons]
    constructor
    · intro h
      refine ⟨?_, lexes_tail h⟩
      rintro ⟨h1, h2⟩
      generalize e : o ++ (b :: ts').flatten = s at h
      cases h with
      | op _ hl _ =>
        have hcc : (b :: ts').flatten.head? = some c := flatten_head hb
        have hx : o ++ o <+: o ++ (b :: ts').flatten := by
          rw [List.prefix_append_right_inj]
          cases hf : (b :: ts').flatten with
          | nil => rw [hf] at hcc; simp at hcc
          | cons d r =>
            rw [hf] at hcc
            rw [h2] at hb
            have : d = c := by simpa using hcc
            subst this
            rcases h1 with rfl | rfl
            · simp at hb; subst hb; simp
            · simp at hb; subst hb; simp
        rw [← List.append_cancel_left e] at hl
        have := hl (o ++ o) (by rcases h1 with rfl | rfl <;> decide) hx
        rcases h1 with rfl | rfl <;> simp at this
      | word _ hw _ _ =>
        rcases h1 with rfl | rfl
        · exact absurd (hw '+' (by simp)) (by decide)
        · exact absurd (hw '-' (by simp)) (by decide)
    · rintro ⟨hg, h⟩
      have hcc : (b :: ts').flatten.head? = some c := flatten_head hb
      refine .op (prefix_ops_tokens o ho) (longest ho ?_ ?_) h
      · intro d hd; rw [hcc] at hd; cases hd; exact hc
      · rw [hcc, ← hb]; exact hg

/-! ### What is printed -/

/-- Wherever the document is printed, it writes the text. -/
def Writes (d : Doc) (s : Str) : Prop :=
  ∀ w i fl rest st, (pr w d i fl rest st).flush.out = st.flush.out ++ s

theorem writes_text {s : Str} (h : s ≠ [' ']) : Writes (txt s) s := by
  intro w i fl rest st
  rw [txt, pr, PSt.putText, if_neg (fun e => h e.1)]
  rw [PSt.flush_of_none (by simp [PSt.flush_pend])]

theorem writes_nil : Writes (.concat []) [] := by
  intro w i fl rest st
  rw [pr, prs, List.append_nil]

theorem writes_cons {d : Doc} {ds : List Doc} {s s' : Str} (h : Writes d s) (h' : Writes (.concat ds) s') :
    Writes (.concat (d :: ds)) (s ++ s') := by
  intro w i fl rest st
  have h1 := h w i fl (ds.map (fun d => { doc := d, indent := i, flat := fl }) ++ rest) st
  have h2 := h' w i fl rest (pr w d i fl (ds.map (fun d => { doc := d, indent := i, flat := fl }) ++ rest) st)
  rw [pr] at h2
  rw [pr, prs, h2, h1, List.append_assoc]

theorem writes_flat {d : Doc} {s : Str} (h : Writes d s) : Writes (.concat [d]) s := by
  have := writes_cons h writes_nil
  rwa [List.append_nil] at this

/-- A node without comments and without punctuation behind it. -/
def Quiet (cm : CMap) (l : Loc) : Prop :=
  (∀ b, cm.get? l.id = some b → b.pre = [] ∧ b.dangling = [] ∧ b.post = []) ∧
  ∀ s, l.rightSiblings.find? (fun s => !s.extra) = some s → s.kind ≠ "," ∧ s.kind ≠ ";"

theorem writes_bwcp {k : Nat} {cm : CMap} {l : Loc} {ms : List Prog} {d : Doc} {lg : List Comment} (hq : Quiet cm l)
    (h : (New.bwcp l ms).build k cm = .ok (d, lg)) :
    ∃ ds lg', Prog.builds k cm ms = .ok (ds, lg') ∧ ∀ s, Writes (.concat ds) s → Writes d s := by
  rw [New.bwcp, punc_none hq.2, withCommentsAndPunc] at h
  simp only [punctOpt, List.append_nil, Prog.build, Prog.builds] at h
  cases hg : cm.get? l.id with
  | none => simp [getBucket, hg] at h
  | some b =>
    obtain ⟨h1, h2, h3⟩ := hq.1 b hg
    simp only [getBucket, hg, h1, h2, h3, preDocs, postDocs, ne_eq, not_true_eq_false, if_false] at h
    cases hm : Prog.builds k cm ms with
    | error e => rw [hm] at h; cases h
    | ok r =>
      obtain ⟨ds, lg'⟩ := r
      rw [hm] at h
      simp only [Except.ok.injEq, Prod.mk.injEq] at h
      refine ⟨ds, lg', rfl, fun s hs => ?_⟩
      rw [← h.1]
      have := writes_cons writes_nil (writes_cons hs (writes_flat writes_nil))
      simpa using this

/-- The node at the location is this nest. -/
def NestAt (cm : CMap) : Nest → Loc → Prop
  | .name w, l => l.kind = "identifier" ∧ Quiet cm l ∧ l.value = w
  | .pre op n, l => Quiet cm l ∧ ∃ o x, l.cByN "operator" = .ok o ∧ o.value = op ∧ l.cByN "operand" = .ok x ∧ NestAt cm n x ∧
      (l.kind = "unary_expression" ∨ l.kind = "update_expression" ∧ o.startByte < x.startByte)
  | .post n op, l => Quiet cm l ∧ ∃ o x, l.cByN "operator" = .ok o ∧ o.value = op ∧ l.cByN "operand" = .ok x ∧ NestAt cm n x ∧
      l.kind = "update_expression" ∧ ¬ o.startByte < x.startByte

theorem cvalue_of_c {l o : Loc} {f : String} (h : l.cByN f = .ok o) : l.cvalueByN f = .ok o.value := by
  unfold Loc.cByN at h
  unfold Loc.cvalueByN
  split at h
  · cases h; rfl
  · cases h

theorem op_ne_blank {o : Str} (h : o ∈ prefixOps) : o ≠ [' '] := (by decide : ∀ o ∈ prefixOps, o ≠ [' ']) o h

theorem expr_name {cfg : Cfg} {fuel : Nat} {l : Loc} {p : Prog} (hk : l.kind = "identifier")
    (h : Prog.new cfg fuel .expression l = .ok p) : p = New.bwcp l [.txt l.value] := by
  cases fuel with
  | zero => cases h
  | succ fuel =>
    change New.expression (Prog.new cfg fuel) l = _ at h
    simp only [New.expression, New.dispatch, hk] at h
    change Prog.new cfg fuel .primaryExpression l = _ at h
    cases fuel with
    | zero => cases h
    | succ fuel =>
      change New.primaryExpression (Prog.new cfg fuel) l = _ at h
      simp only [New.primaryExpression, New.dispatch, hk] at h
      change Prog.new cfg fuel .valueNode l = _ at h
      cases fuel with
      | zero => cases h
      | succ fuel => cases h; rfl

theorem expr_unary {cfg : Cfg} {fuel : Nat} {l o x : Loc} {p : Prog} (hk : l.kind = "unary_expression")
    (ho : l.cByN "operator" = .ok o) (hx : l.cByN "operand" = .ok x)
    (h : Prog.new cfg fuel .expression l = .ok p) :
    ∃ fuel e, Prog.new cfg fuel .expression x = .ok e ∧ p = New.bwcp l [.txt o.value, e] := by
  cases fuel with
  | zero => cases h
  | succ fuel =>
    change New.expression (Prog.new cfg fuel) l = _ at h
    simp only [New.expression, New.dispatch, hk] at h
    change Prog.new cfg fuel .unaryExpression l = _ at h
    cases fuel with
    | zero => cases h
    | succ fuel =>
      change New.unaryExpression (Prog.new cfg fuel) l = _ at h
      simp only [New.unaryExpression, assertCheck, hk, beq_self_eq_true, if_true, bind, Except.bind, cvalue_of_c ho, hx] at h
      split at h
      · cases h
      · rename_i e he; cases h; exact ⟨fuel, e, he, rfl⟩

theorem expr_update {cfg : Cfg} {fuel : Nat} {l o x : Loc} {p : Prog} (hk : l.kind = "update_expression")
    (ho : l.cByN "operator" = .ok o) (hx : l.cByN "operand" = .ok x)
    (h : Prog.new cfg fuel .expression l = .ok p) :
    ∃ fuel e, Prog.new cfg fuel .expression x = .ok e ∧
      p = New.bwcp l [.concat (if o.startByte < x.startByte then [.txt o.value, e] else [e, .txt o.value])] := by
  cases fuel with
  | zero => cases h
  | succ fuel =>
    change New.expression (Prog.new cfg fuel) l = _ at h
    simp only [New.expression, New.dispatch, hk] at h
    change Prog.new cfg fuel .updateExpression l = _ at h
    cases fuel with
    | zero => cases h
    | succ fuel =>
      change New.wrapper (Prog.new cfg fuel) "update_expression" .updateExpressionVariant l = _ at h
      simp only [New.wrapper, assertCheck, hk, beq_self_eq_true, if_true, bind, Except.bind] at h
      split at h
      · cases h
      · rename_i v hv
        cases h
        cases fuel with
        | zero => cases hv
        | succ fuel =>
          change New.updateExpressionVariant (Prog.new cfg fuel) l = _ at hv
          simp only [New.updateExpressionVariant, assertCheck, hk, beq_self_eq_true, if_true, bind, Except.bind, ho, hx] at hv
          split at hv
          · cases hv
          · rename_i e he; cases hv; exact ⟨fuel, e, he, rfl⟩

theorem builds_two {k : Nat} {cm : CMap} {s : Str} {e : Prog} {ds : List Doc} {lg : List Comment}
    (h : Prog.builds k cm [.txt s, e] = .ok (ds, lg)) : ∃ d lg', e.build k cm = .ok (d, lg') ∧ ds = [txt s, d] := by
  simp only [Prog.builds, Prog.build] at h
  split at h
  · cases h
  · rename_i hx
    split at hx
    · cases hx
    · rename_i he; cases hx; cases h; exact ⟨_, _, he, rfl⟩

theorem builds_two' {k : Nat} {cm : CMap} {s : Str} {e : Prog} {ds : List Doc} {lg : List Comment}
    (h : Prog.builds k cm [e, .txt s] = .ok (ds, lg)) : ∃ d lg', e.build k cm = .ok (d, lg') ∧ ds = [d, txt s] := by
  simp only [Prog.builds, Prog.build] at h
  split at h
  · cases h
  · rename_i he; cases h; exact ⟨_, _, he, rfl⟩

theorem builds_concat {k : Nat} {cm : CMap} {ps : List Prog} {ds : List Doc} {lg : List Comment}
    (h : Prog.builds k cm [.concat ps] = .ok (ds, lg)) : ∃ es lg', Prog.builds k cm ps = .ok (es, lg') ∧ ds = [.concat es] := by
  simp only [Prog.builds, Prog.build] at h
  split at h
  · cases h
  · rename_i hx
    split at hx
    · rename_i he; cases hx; cases h; exact ⟨_, _, he, rfl⟩
    · cases hx

/-- A nest writes its tokens one after the other. -/
theorem writes_nest {cfg : Cfg} {k : Nat} : ∀ (n : Nest) (l : Loc) (fuel : Nat) (p : Prog) (d : Doc) (lg : List Comment), n.Ok →
    NestAt cfg.cm n l → Prog.new cfg fuel .expression l = .ok p → p.build k cfg.cm = .ok (d, lg) → Writes d n.toks.flatten
  | .name w, l, fuel, p, d, lg, ho, hl, hn, hb => by
    obtain ⟨hk, hq, rfl⟩ := hl
    rw [expr_name hk hn] at hb
    obtain ⟨ds, lg', h1, h2⟩ := writes_bwcp hq hb
    simp only [Prog.builds, Prog.build, Except.ok.injEq, Prod.mk.injEq] at h1
    refine h2 _ ?_
    rw [← h1.1]
    have : l.value ≠ [' '] := by
      intro e
      have := ho.2 ' ' (by rw [e]; simp)
      exact absurd this (by decide)
    simpa [Nest.toks] using writes_flat (writes_text this)
  | .pre op n, l, fuel, p, d, lg, ho, hl, hn, hb => by
    obtain ⟨hq, o, x, h1, rfl, h2, hx, hk⟩ := hl
    have two : ∀ e ds lg' fuel, Prog.new cfg fuel .expression x = .ok e → Prog.builds k cfg.cm [.txt o.value, e] = .ok (ds, lg') →
        Writes (.concat ds) (o.value ++ n.toks.flatten) := by
      intro e ds lg' fuel he hds
      obtain ⟨d', lg'', hd', rfl⟩ := builds_two hds
      exact writes_cons (writes_text (op_ne_blank ho.1)) (writes_flat (writes_nest n x fuel e d' lg'' ho.2 hx he hd'))
    rw [Nest.toks, List.flatten_cons]
    rcases hk with hk | ⟨hk, hlt⟩
    · obtain ⟨fuel', e, he, rfl⟩ := expr_unary hk h1 h2 hn
      obtain ⟨ds, lg', g1, g2⟩ := writes_bwcp hq hb
      exact g2 _ (two e ds lg' fuel' he g1)
    · obtain ⟨fuel', e, he, rfl⟩ := expr_update hk h1 h2 hn
      rw [if_pos hlt] at hb
      obtain ⟨ds, lg', g1, g2⟩ := writes_bwcp hq hb
      obtain ⟨es, lg'', g3, rfl⟩ := builds_concat g1
      exact g2 _ (writes_flat (two e es lg'' fuel' he g3))
  | .post n op, l, fuel, p, d, lg, ho, hl, hn, hb => by
    obtain ⟨hq, o, x, h1, rfl, h2, hx, hk, hlt⟩ := hl
    obtain ⟨fuel', e, he, rfl⟩ := expr_update hk h1 h2 hn
    rw [if_neg hlt] at hb
    obtain ⟨ds, lg', g1, g2⟩ := writes_bwcp hq hb
    obtain ⟨es, lg'', g3, rfl⟩ := builds_concat g1
    obtain ⟨d', lg3, hd', rfl⟩ := builds_two' g3
    refine g2 _ (writes_flat ?_)
    have := writes_cons (writes_nest n x fuel' e d' lg3 ho.2 hx he hd')
      (writes_flat (writes_text (op_ne_blank (postfix_ops_prefix _ ho.1))))
    simpa [Nest.toks] using this

end Afmt
