import Verif.Glue
import Verif.Gram.Ctx

/-!
# Layout of operator chains and call chains (lemmas for C46 and C47)
-/

namespace Afmt
open Prog Gram

/-! ### Printing a document as a sequence of chunks -/

/-- The chunks are printed alike and look alike to the look-ahead. -/
structure Eqv (cs cs' : List Chunk) : Prop where
  scan : ∀ wg rem, scanChunks wg cs rem = scanChunks wg cs' rem
  print : ∀ w st, prChunks w cs st = prChunks w cs' st

theorem Eqv.rfl {cs : List Chunk} : Eqv cs cs := ⟨fun _ _ => .refl _, fun _ _ => .refl _⟩
theorem Eqv.trans {a b c : List Chunk} (h : Eqv a b) (h' : Eqv b c) : Eqv a c :=
  ⟨fun wg r => (h.scan wg r).trans (h'.scan wg r), fun w st => (h.print w st).trans (h'.print w st)⟩

theorem fitsS_congr {rem : Nat} {c : Chunk} {r r' : List Chunk} (h : ∀ wg rem, scanChunks wg r rem = scanChunks wg r' rem) :
    fitsS rem c r = fitsS rem c r' := by
  unfold fitsS
  split
  · rfl
  · rw [h]

mutual
theorem pr_congr (w : Nat) : ∀ (d : Doc) (i : Nat) (fl : Bool) (r r' : List Chunk) (st : PSt),
    (∀ wg rem, scanChunks wg r rem = scanChunks wg r' rem) → pr w d i fl r st = pr w d i fl r' st
  | .newline, _, _, _, _, _, _ => by rw [pr, pr]
  | .newlineWithNoIndent, _, _, _, _, _, _ => by rw [pr, pr]
  | .softline, _, _, _, _, _, _ => by rw [pr, pr]
  | .maybeline, _, _, _, _, _, _ => by rw [pr, pr]
  | .forceBreak, _, _, _, _, _, _ => by rw [pr, pr]
  | .text _ _, _, _, _, _, _, _ => by rw [pr, pr]
  | .flat d, i, fl, r, r', st, h => by rw [pr, pr, pr_congr w d i true r r' st h]
  | .indent n d, i, fl, r, r', st, h => by rw [pr, pr, pr_congr w d _ fl r r' st h]
  | .dedent n d, i, fl, r, r', st, h => by rw [pr, pr, pr_congr w d _ fl r r' st h]
  | .concat ds, i, fl, r, r', st, h => by rw [pr, pr, prs_congr w ds i fl r r' st h]
  | .choice x y, i, fl, r, r', st, h => by
    rw [pr, pr, pr_congr w x i fl r r' _ h, pr_congr w y i fl r r' _ h, fitsS_congr h]
theorem prs_congr (w : Nat) : ∀ (ds : List Doc) (i : Nat) (fl : Bool) (r r' : List Chunk) (st : PSt),
    (∀ wg rem, scanChunks wg r rem = scanChunks wg r' rem) → prs w ds i fl r st = prs w ds i fl r' st
  | [], _, _, _, _, _, _ => by rw [prs, prs]
  | d :: ds, i, fl, r, r', st, h => by
    rw [prs, prs, pr_congr w d i fl _ (ds.map (fun d => { doc := d, indent := i, flat := fl }) ++ r') st, prs_congr w ds i fl r r' _ h]
    intro wg rem
    rw [scanChunks_append, scanChunks_append]
    split
    · rfl
    · rw [h]
end

theorem Eqv.cons {r r' : List Chunk} (c : Chunk) (h : Eqv r r') : Eqv (c :: r) (c :: r') := by
  constructor
  · intro wg rem
    rw [scanChunks, scanChunks]
    split
    · rfl
    · rw [h.scan]
  · intro w st
    rw [prChunks, prChunks, pr_congr w _ _ _ _ _ _ h.scan, h.print]

theorem Eqv.append {r r' : List Chunk} (cs : List Chunk) (h : Eqv r r') : Eqv (cs ++ r) (cs ++ r') := by
  induction cs with
  | nil => exact h
  | cons c cs ih => exact ih.cons c

/-- In every mode, printing the document is printing the chunks. -/
def ExpandsTo (d : Doc) (f : Nat → Bool → List Chunk) : Prop := ∀ i fl rest, Eqv (⟨d, i, fl⟩ :: rest) (f i fl ++ rest)

theorem exp_self (d : Doc) : ExpandsTo d (fun i fl => [⟨d, i, fl⟩]) := fun _ _ _ => .rfl

theorem exp_concat (ds : List Doc) : ExpandsTo (.concat ds) (fun i fl => ds.map (fun d => ⟨d, i, fl⟩)) := by
  intro i fl rest
  constructor
  · intro wg rem
    show scanChunks wg (_ :: rest) rem = scanChunks wg (_ ++ rest) rem
    rw [scanChunks_append, scanChunks_map, scanChunks, Afmt.scan]
  · intro w st
    show prChunks w (_ :: rest) st = prChunks w (_ ++ rest) st
    rw [prChunks_map, prChunks, pr]

theorem exp_nil : ExpandsTo (.concat []) (fun _ _ => []) := exp_concat []

theorem exp_cons {d : Doc} {ds : List Doc} {f g : Nat → Bool → List Chunk} (h : ExpandsTo d f) (hs : ExpandsTo (.concat ds) g) :
    ExpandsTo (.concat (d :: ds)) (fun i fl => f i fl ++ g i fl) := by
  intro i fl rest
  have h1 : Eqv (⟨.concat (d :: ds), i, fl⟩ :: rest) (⟨d, i, fl⟩ :: (ds.map (fun d => (⟨d, i, fl⟩ : Chunk)) ++ rest)) :=
    exp_concat (d :: ds) i fl rest
  have h2 := h i fl (ds.map (fun d => (⟨d, i, fl⟩ : Chunk)) ++ rest)
  have h3 : Eqv (ds.map (fun d => (⟨d, i, fl⟩ : Chunk)) ++ rest) (g i fl ++ rest) := by
    have a := exp_concat ds i fl rest
    have b := hs i fl rest
    exact ⟨fun wg r => (a.scan wg r).symm.trans (b.scan wg r), fun w st => (a.print w st).symm.trans (b.print w st)⟩
  have := (h1.trans h2).trans (h3.append (f i fl))
  rw [← List.append_assoc] at this
  exact this

theorem exp_one {d : Doc} {f : Nat → Bool → List Chunk} (h : ExpandsTo d f) : ExpandsTo (.concat [d]) f := by
  have := exp_cons h exp_nil
  intro i fl rest
  have := this i fl rest
  simp only [List.append_nil] at this
  exact this

theorem exp_indent {d : Doc} {f : Nat → Bool → List Chunk} (k : Nat) (h : ExpandsTo d f) :
    ExpandsTo (.indent k d) (fun i fl => f (i + k) fl) := by
  intro i fl rest
  refine Eqv.trans ?_ (h (i + k) fl rest)
  constructor
  · intro wg rem; rw [scanChunks, scanChunks, Afmt.scan]
  · intro w st; rw [prChunks, prChunks, pr]

/-- A group decides once how everything in it is printed. -/
theorem exp_group {d : Doc} {f : Nat → Bool → List Chunk} (h : ExpandsTo d f) (w i : Nat) (fl : Bool) (rest : List Chunk) (st : PSt) :
    ∃ m, (fl = true → m = true) ∧
      prChunks w (⟨group d, i, fl⟩ :: rest) st = prChunks w (f i m ++ rest) st.flush := by
  have go : ∀ m, prChunks w rest (pr w d i m rest st.flush) = prChunks w (f i m ++ rest) st.flush := by
    intro m
    have := (h i m rest).print w st.flush
    rwa [prChunks] at this
  rw [prChunks, group, pr]
  cases fl with
  | true => exact ⟨true, fun _ => rfl, by simp only [if_true, pr]; exact go true⟩
  | false =>
    simp only [Bool.false_eq_true, if_false]
    split
    · exact ⟨true, fun _ => rfl, by simp only [pr]; exact go true⟩
    · exact ⟨false, False.elim, go false⟩

/-- Documents side by side at one indentation and in one mode. -/
def row (ds : List Doc) (i : Nat) (m : Bool) : List Chunk := ds.map (fun d => ⟨d, i, m⟩)

theorem exp_app {ds es : List Doc} {f g : Nat → Bool → List Chunk} (hd : ExpandsTo (.concat ds) f)
    (he : ExpandsTo (.concat es) g) : ExpandsTo (.concat (ds ++ es)) (fun i fl => f i fl ++ g i fl) := by
  intro i fl rest
  have h1 := exp_concat (ds ++ es) i fl rest
  have h2 := hd i fl (es.map (fun d => (⟨d, i, fl⟩ : Chunk)) ++ rest)
  have h3 := exp_concat ds i fl (es.map (fun d => (⟨d, i, fl⟩ : Chunk)) ++ rest)
  have h4 := exp_concat es i fl rest
  have h5 := he i fl rest
  have sym : ∀ {a b : List Chunk}, Eqv a b → Eqv b a := fun h =>
    ⟨fun wg r => (h.scan wg r).symm, fun w st => (h.print w st).symm⟩
  simp only [List.map_append, List.append_assoc] at h1
  refine (h1.trans ((sym h3).trans h2)).trans ?_
  rw [List.append_assoc]
  exact ((sym h4).trans h5).append _

/-- What a node's comments and the punctuation behind it add in front of it and behind it. -/
def Adds (cm : CMap) (l : Loc) (pre post : List Doc) : Prop :=
  ∃ b, cm.get? l.id = some b ∧ pre = preDocs true b.pre ∧
    ∃ more, post = postDocs b.post ++ more ∧ match Punc.from l with
      | none => more = []
      | some p => ∃ pb, cm.get? p.id = some pb ∧ more = [.concat (puncDocs pb p)]

/-- No comment stands in the node without belonging to one of its parts. -/
def NoDangling (cm : CMap) (l : Loc) : Prop := ∀ b, cm.get? l.id = some b → b.dangling = []

theorem exp_bwcp {k : Nat} {cm : CMap} {l : Loc} {ms : List Prog} {d : Doc} {lg : List Comment} (hq : NoDangling cm l)
    (h : (New.bwcp l ms).build k cm = .ok (d, lg)) :
    ∃ ds lg' pre post, Prog.builds k cm ms = .ok (ds, lg') ∧ Adds cm l pre post ∧
      ∀ f, ExpandsTo (.concat ds) f → ExpandsTo d (fun i fl => row pre i fl ++ f i fl ++ row post i fl) := by
  rw [New.bwcp, withCommentsAndPunc] at h
  simp only [Prog.build, Prog.builds, List.cons_append, List.nil_append] at h
  cases hg : cm.get? l.id with
  | none => simp [getBucket, hg] at h
  | some b =>
    have h2 := hq b hg
    simp only [getBucket, hg, h2, ne_eq, not_true_eq_false, if_false] at h
    cases hm : Prog.builds k cm ms with
    | error e => rw [hm] at h; cases h
    | ok r =>
      obtain ⟨ds, lg'⟩ := r
      rw [hm] at h
      simp only at h
      have fin : ∀ more f, ExpandsTo (.concat ds) f →
          ExpandsTo (.concat (.concat (preDocs true b.pre) :: .concat ds :: .concat (postDocs b.post) :: more))
            (fun i fl => row (preDocs true b.pre) i fl ++ f i fl ++ row (postDocs b.post ++ more) i fl) := by
        intro more f hs
        have := exp_cons (exp_concat (preDocs true b.pre)) (exp_cons hs (exp_cons (exp_concat (postDocs b.post)) (exp_concat more)))
        intro i fl rest
        have := this i fl rest
        simpa [row] using this
      cases hp : Punc.from l with
      | none =>
        simp only [hp, punctOpt, Prog.builds, Except.ok.injEq, Prod.mk.injEq] at h
        refine ⟨ds, lg', _, _, rfl, ⟨b, hg, rfl, [], rfl, by rw [hp]⟩, fun f hs => ?_⟩
        rw [← h.1]
        exact fin [] f hs
      | some p =>
        simp only [hp, punctOpt, Prog.builds, Prog.build] at h
        cases hpb : cm.get? p.id with
        | none => simp [getBucket, hpb] at h
        | some pb =>
          simp only [getBucket, hpb, Except.ok.injEq, Prod.mk.injEq] at h
          refine ⟨ds, lg', _, _, rfl, ⟨b, hg, rfl, _, rfl, by rw [hp]; exact ⟨pb, hpb, rfl⟩⟩, fun f hs => ?_⟩
          rw [← h.1]
          exact fin _ f hs

/-! ### Chains of binary operators -/

/-- Nested binary expressions over operands. -/
inductive BinTree where
  | operand (x : Loc)
  | bin (l : Loc) (a : BinTree) (op : String) (b : BinTree)

/-- The node of the tree. -/
def BinTree.node : BinTree → Loc
  | .operand x => x
  | .bin l _ _ _ => l

/-- The tree describes what is at its node: binary expressions with operators of the given precedence, down to the
operands. -/
def BinTree.Ok (cm : CMap) (prec : Nat) : BinTree → Prop
  | .operand _ => True
  | .bin l a op b => l.kind = "binary_expression" ∧ NoDangling cm l ∧ getPrecedence op = .ok prec ∧
      (∃ o, l.cByN "operator" = .ok o ∧ o.kind = op) ∧
      l.cByN "left" = .ok a.node ∧ l.cByN "right" = .ok b.node ∧ a.Ok cm prec ∧ b.Ok cm prec

/-- The documents of the operands in order, a line break opportunity before each operator. -/
inductive BinTree.Row (cfg : Cfg) (k : Nat) : BinTree → List Doc → Prop
  | operand {x d fuel p lg} : Prog.new cfg fuel .expression x = .ok p → p.build k cfg.cm = .ok (d, lg) →
      Row cfg k (.operand x) [d]
  | bin {l a b op as bs pre post} : Row cfg k a as → Row cfg k b bs → Adds cfg.cm l pre post →
      Row cfg k (.bin l a op b) (pre ++ (as ++ [.softline, txt op.toList, txt [' ']] ++ bs) ++ post)

theorem expr_binary {cfg : Cfg} {fuel : Nat} {l o x y : Loc} {p : Prog} (hk : l.kind = "binary_expression")
    (ho : l.cByN "operator" = .ok o) (hx : l.cByN "left" = .ok x) (hy : l.cByN "right" = .ok y)
    (h : Prog.new cfg fuel .expression l = .ok p) :
    ∃ f a b ctx, Prog.new cfg f .expression x = .ok a ∧ Prog.new cfg f .expression y = .ok b ∧
      New.binaryContext l = .ok ctx ∧
      p = New.bwcp l [if ctx.hasParentSamePrecedence then .concat [a, .softline, Prog.t o.kind, Prog.t " ", b]
        else if !ctx.isAChainingInnerNode && !ctx.isParentReturnStatement then Prog.groupConcat [a, .softline, Prog.t o.kind, Prog.t " ", b]
        else Prog.groupIndentConcat [a, .softline, Prog.t o.kind, Prog.t " ", b]] := by
  cases fuel with
  | zero => cases h
  | succ fuel =>
    change New.expression (Prog.new cfg fuel) l = _ at h
    simp only [New.expression, New.dispatch, hk] at h
    change Prog.new cfg fuel .binaryExpression l = _ at h
    cases fuel with
    | zero => cases h
    | succ fuel =>
      change New.binaryExpression (Prog.new cfg fuel) l = _ at h
      simp only [New.binaryExpression, assertCheck, hk, beq_self_eq_true, if_true, bind, Except.bind, ho, hx, hy] at h
      split at h
      · cases h
      · rename_i a ha
        split at h
        · cases h
        · rename_i b hb
          split at h
          · cases h
          · rename_i c hc
            exact ⟨fuel, a, b, c, ha, hb, hc, (Except.ok.inj h).symm⟩

theorem parent_of_cByN {l x : Loc} {f : String} (h : l.cByN f = .ok x) : x.parent = some l := by
  unfold Loc.cByN at h
  split at h
  · rename_i hc
    cases h
    exact children_parent (List.mem_of_find?_eq_some hc)
  · cases h

theorem exp_op {k : Nat} {cm : CMap} {a b : Prog} {op : String} {ds : List Doc} {lg : List Comment}
    (h : Prog.builds k cm [a, .softline, Prog.t op, Prog.t " ", b] = .ok (ds, lg)) :
    ∃ da la db lb, a.build k cm = .ok (da, la) ∧ b.build k cm = .ok (db, lb) ∧
      ds = [da, .softline, txt op.toList, txt [' '], db] := by
  simp only [Prog.builds, Prog.build, Prog.t] at h
  cases ha : a.build k cm with
  | error e => simp [ha] at h
  | ok ra =>
    cases hb : b.build k cm with
    | error e => simp [ha, hb] at h
    | ok rb =>
      simp only [ha, hb, Except.ok.injEq, Prod.mk.injEq] at h
      exact ⟨_, _, _, _, rfl, rfl, h.1.symm⟩

theorem exp_ops {da db : Doc} {op : Str} {as bs : List Doc} (ha : ExpandsTo da (row as)) (hb : ExpandsTo db (row bs)) :
    ExpandsTo (.concat [da, .softline, txt op, txt [' '], db]) (row (as ++ [.softline, txt op, txt [' ']] ++ bs)) := by
  have := exp_cons ha (exp_cons (exp_self .softline) (exp_cons (exp_self (txt op)) (exp_cons (exp_self (txt [' '])) (exp_one hb))))
  intro i fl rest
  have := this i fl rest
  simpa [row] using this

/-- The node's parent is a binary expression of the same precedence. -/
def SameAbove (prec : Nat) (l : Loc) : Prop :=
  ∃ p o, l.parent = some p ∧ p.kind = "binary_expression" ∧ p.cByN "operator" = .ok o ∧ getPrecedence o.kind = .ok prec

theorem context_same {l o : Loc} {prec : Nat} {ctx : New.BinaryContext} (ho : l.cByN "operator" = .ok o)
    (hp : getPrecedence o.kind = .ok prec) (h : New.binaryContext l = .ok ctx) :
    ctx.hasParentSamePrecedence = true ↔ SameAbove prec l := by
  unfold New.binaryContext at h
  simp only [bind, Except.bind, ho, hp] at h
  cases hl : l.parent with
  | none => simp [hl] at h
  | some p =>
    simp only [hl] at h
    by_cases hb : p.kind = "binary_expression"
    · simp only [isBinaryExp, hb, beq_self_eq_true, if_true] at h
      cases hpo : p.cByN "operator" with
      | error e => simp [hpo] at h
      | ok po =>
        simp only [hpo] at h
        cases hpp : getPrecedence po.kind with
        | error e => simp [hpp] at h
        | ok pp =>
          simp only [hpp, Except.ok.injEq] at h
          rw [← h]
          constructor
          · intro e
            simp only [beq_iff_eq] at e
            exact ⟨p, po, hl, hb, hpo, e ▸ hpp⟩
          · rintro ⟨p', o', h1, -, h2, h3⟩
            rw [hl] at h1
            cases h1
            rw [hpo] at h2
            cases h2
            rw [hpp] at h3
            cases h3
            simp
    · have : (p.kind == "binary_expression") = false := by simpa using hb
      simp only [isBinaryExp, this, Bool.false_eq_true, if_false, Except.ok.injEq] at h
      rw [← h]
      constructor
      · intro e; cases e
      · rintro ⟨p', o', h1, h2, -⟩
        rw [hl] at h1
        cases h1
        exact absurd h2 hb

theorem exp_inner {cfg : Cfg} {k : Nat} {prec : Nat} : ∀ (t : BinTree) (fuel : Nat) (p : Prog) (d : Doc) (lg : List Comment),
    t.Ok cfg.cm prec → SameAbove prec t.node → Prog.new cfg fuel .expression t.node = .ok p → p.build k cfg.cm = .ok (d, lg) →
    ∃ ds, t.Row cfg k ds ∧ ExpandsTo d (row ds)
  | .operand x, fuel, p, d, lg, _, _, hn, hb => ⟨[d], .operand hn hb, exp_self d⟩
  | .bin l a op b, fuel, p, d, lg, ⟨hk, hq, hp, ⟨o, ho, hop⟩, hx, hy, hoka, hokb⟩, hs, hn, hb => by
    obtain ⟨f, pa, pb, ctx, ha, hb', hc, rfl⟩ := expr_binary hk ho hx hy hn
    have hsame := (context_same ho (hop ▸ hp) hc).2 hs
    rw [hsame, if_pos rfl] at hb
    obtain ⟨ds, lg', pre, post, h1, h2, h3⟩ := exp_bwcp hq hb
    obtain ⟨es, lg'', h4, rfl⟩ := builds_concat h1
    obtain ⟨da, la, db, lb, h5, h6, rfl⟩ := exp_op h4
    have up : ∀ {x : Loc} {f}, l.cByN f = .ok x → SameAbove prec x := fun h =>
      ⟨l, o, parent_of_cByN h, hk, ho, hop ▸ hp⟩
    obtain ⟨as, r1, e1⟩ := exp_inner a f pa da la hoka (up hx) ha h5
    obtain ⟨bs, r2, e2⟩ := exp_inner b f pb db lb hokb (up hy) hb' h6
    refine ⟨_, .bin r1 r2 h2, ?_⟩
    have := h3 _ (exp_one (exp_ops e1 e2))
    rw [hop] at this
    intro i fl rest
    have := this i fl rest
    simpa [row] using this

/-! ### Chains of accesses -/

/-- A chain along the receivers: calls and field accesses with a dot, array accesses, and what it starts with. -/
inductive Chain where
  | base (x : Loc)
  | dot (l : Loc) (c : Chain)
  | index (l : Loc) (c : Chain)

/-- The outermost node. -/
def Chain.node : Chain → Loc
  | .base x => x
  | .dot l _ => l
  | .index l _ => l

/-- The chain describes what is at its node. -/
def Chain.Ok (cm : CMap) : Chain → Prop
  | .base _ => True
  | .dot l c => (l.kind = "method_invocation" ∨ l.kind = "field_access") ∧ NoDangling cm l ∧ l.tryCByN "object" = some c.node ∧ c.Ok cm
  | .index l c => l.kind = "array_access" ∧ NoDangling cm l ∧ l.tryCByN "array" = some c.node ∧ c.Ok cm

/-- The document that starts a link: a dot or what the safe navigation operator is printed as. -/
inductive LinkStart (cfg : Cfg) (k : Nat) : Doc → Prop
  | dot : LinkStart cfg k (txt ['.'])
  | safe {s fuel p d lg} : s.kind = "safe_navigation_operator" → Prog.new cfg fuel .safeNavigationOperator s = .ok p →
      p.build k cfg.cm = .ok (d, lg) → LinkStart cfg k d

/-- How an expression may be asked for. -/
def ExprCode (c : Cls) : Prop := c = .expression ∨ c = .primaryExpression ∨ c = .objectExpression

/-- The documents of the links in order; `b` says whether there is a line break opportunity before each dot. -/
inductive Chain.Row (cfg : Cfg) (k : Nat) (b : Bool) : Chain → List Doc → Prop
  | base {x d fuel c p lg} : ExprCode c → Prog.new cfg fuel c x = .ok p → p.build k cfg.cm = .ok (d, lg) →
      Row cfg k b (.base x) [d]
  | dot {l c ds nav link pre post} : Row cfg k b c ds → LinkStart cfg k nav → Adds cfg.cm l pre post →
      Row cfg k b (.dot l c) (pre ++ (ds ++ (if b then [.maybeline] else []) ++ nav :: link) ++ post)
  | index {l c ds y i fuel p lg pre post} : Row cfg k b c ds → l.cByN "index" = .ok y →
      Prog.new cfg fuel .expression y = .ok p → p.build k cfg.cm = .ok (i, lg) → Adds cfg.cm l pre post →
      Row cfg k b (.index l c) (pre ++ (ds ++ [txt ['['], i, txt [']']]) ++ post)

theorem to_primary {cfg : Cfg} {fuel : Nat} {c : Cls} {l : Loc} {p : Prog} (hc : ExprCode c)
    (hk : l.kind = "method_invocation" ∨ l.kind = "field_access" ∨ l.kind = "array_access")
    (h : Prog.new cfg fuel c l = .ok p) : ∃ fuel, Prog.new cfg fuel .primaryExpression l = .ok p := by
  rcases hc with rfl | rfl | rfl
  · cases fuel with
    | zero => cases h
    | succ fuel =>
      change New.expression (Prog.new cfg fuel) l = _ at h
      refine ⟨fuel, ?_⟩
      rcases hk with hk | hk | hk <;> simp only [New.expression, New.dispatch, hk] at h <;> exact h
  · exact ⟨fuel, h⟩
  · cases fuel with
    | zero => cases h
    | succ fuel =>
      change New.objectExpression (Prog.new cfg fuel) l = _ at h
      refine ⟨fuel, ?_⟩
      have : l.kind ≠ "super" := by rcases hk with hk | hk | hk <;> rw [hk] <;> decide
      rw [New.objectExpression, if_neg this] at h
      exact h

theorem expr_index {cfg : Cfg} {fuel : Nat} {c : Cls} {l x : Loc} {p : Prog} (hc : ExprCode c)
    (hk : l.kind = "array_access") (hx : l.tryCByN "array" = some x) (h : Prog.new cfg fuel c l = .ok p) :
    ∃ f y a i, Prog.new cfg f .primaryExpression x = .ok a ∧ l.cByN "index" = .ok y ∧ Prog.new cfg f .expression y = .ok i ∧
      p = New.bwcp l [a, Prog.t "[", i, Prog.t "]"] := by
  obtain ⟨fuel, h⟩ := to_primary hc (.inr (.inr hk)) h
  cases fuel with
  | zero => cases h
  | succ fuel =>
    change New.primaryExpression (Prog.new cfg fuel) l = _ at h
    simp only [New.primaryExpression, New.dispatch, hk] at h
    change Prog.new cfg fuel .arrayAccess l = _ at h
    cases fuel with
    | zero => cases h
    | succ fuel =>
      change New.arrayAccess (Prog.new cfg fuel) l = _ at h
      have hx' : l.cByN "array" = .ok x := by rw [Loc.cByN, hx]
      simp only [New.arrayAccess, assertCheck, hk, beq_self_eq_true, if_true, bind, Except.bind, hx'] at h
      split at h
      · cases h
      · rename_i a ha
        split at h
        · cases h
        · rename_i y hy
          split at h
          · cases h
          · rename_i i hi
            exact ⟨fuel, y, a, i, ha, hy, hi, (Except.ok.inj h).symm⟩

/-- The program of a link start. -/
inductive NavProg (cfg : Cfg) : Prog → Prop
  | dot : NavProg cfg (Prog.t ".")
  | safe {s fuel p} : s.kind = "safe_navigation_operator" → Prog.new cfg fuel .safeNavigationOperator s = .ok p → NavProg cfg p

theorem expr_dot {cfg : Cfg} {fuel : Nat} {c : Cls} {l x : Loc} {p : Prog} (hc : ExprCode c)
    (hk : l.kind = "method_invocation" ∨ l.kind = "field_access") (hx : l.tryCByN "object" = some x)
    (h : Prog.new cfg fuel c l = .ok p) :
    ∃ f a nav link ctx, Prog.new cfg f .objectExpression x = .ok a ∧ NavProg cfg nav ∧ buildChainingContext l = .ok ctx ∧
      p = New.bwcp l [New.chainDoc ctx a (nav :: link)] := by
  obtain ⟨fuel, h⟩ := to_primary hc (hk.elim .inl (fun h => .inr (.inl h))) h
  cases fuel with
  | zero => cases h
  | succ fuel =>
    change New.primaryExpression (Prog.new cfg fuel) l = _ at h
    rcases hk with hk | hk
    · simp only [New.primaryExpression, New.dispatch, hk] at h
      change Prog.new cfg fuel .methodInvocation l = _ at h
      cases fuel with
      | zero => cases h
      | succ fuel =>
        change New.methodInvocation (Prog.new cfg fuel) l = _ at h
        simp only [New.methodInvocation, assertCheck, hk, beq_self_eq_true, if_true, bind, Except.bind, hx] at h
        split at h
        · cases h
        split at h
        · cases h
        split at h
        · cases h
        split at h
        · cases h
        split at h
        · cases h
        rename_i a ha
        split at h
        · cases h
        rename_i nav hnav
        split at h
        · cases h
        split at h
        · cases h
        rename_i ctx hctx
        refine ⟨fuel, a, nav, _, ctx, ha, ?_, hctx, (Except.ok.inj h).symm⟩
        simp only [New.propertyNavigation, bind, Except.bind] at hnav
        split at hnav
        · cases hnav
        split at hnav
        · rename_i hs; exact .safe hs hnav
        · cases hnav; exact .dot
    · simp only [New.primaryExpression, New.dispatch, hk] at h
      change Prog.new cfg fuel .fieldAccess l = _ at h
      cases fuel with
      | zero => cases h
      | succ fuel =>
        change New.fieldAccess (Prog.new cfg fuel) l = _ at h
        have hx' : l.cByN "object" = .ok x := by rw [Loc.cByN, hx]
        simp only [New.fieldAccess, assertCheck, hk, beq_self_eq_true, if_true, bind, Except.bind, hx'] at h
        split at h
        · cases h
        rename_i a ha
        split at h
        · cases h
        rename_i nav hnav
        split at h
        · cases h
        split at h
        · cases h
        split at h
        · cases h
        rename_i ctx hctx
        refine ⟨fuel, a, nav, _, ctx, ha, ?_, hctx, (Except.ok.inj h).symm⟩
        unfold New.fieldNavigation at hnav
        split at hnav
        · rename_i s hs
          refine .safe (s := s) ?_ hnav
          have := List.find?_some hs
          simpa using this
        · cases hnav; exact .dot

theorem parent_of_try {l x : Loc} {f : String} (h : l.tryCByN f = some x) : x.parent = some l :=
  children_parent (List.mem_of_find?_eq_some h)

/-- The node's parent is an element of a chain. -/
def ChainAbove (l : Loc) : Prop := ∃ p, l.parent = some p ∧ isChainingKind p.kind = true

theorem context_chain {l x : Loc} {ctx : Option ChainingContext} (hx : l.tryCByN "object" = some x)
    (h : buildChainingContext l = .ok ctx) :
    (ChainAbove l → ctx = some ⟨true, false⟩) ∧
    (¬ ChainAbove l → ctx = if isChainingKind x.kind then some ⟨false, true⟩ else none) := by
  unfold buildChainingContext at h
  cases hl : l.parent with
  | none => simp [hl] at h
  | some p =>
    simp only [hl, hx, Option.map_some, Option.getD_some] at h
    have iff : ChainAbove l ↔ isChainingKind p.kind = true := by
      constructor
      · rintro ⟨q, h1, h2⟩; rw [hl] at h1; cases h1; exact h2
      · intro h; exact ⟨p, hl, h⟩
    constructor
    · intro hc
      rw [iff] at hc
      simp [hc] at h
      exact h.symm
    · intro hc
      rw [iff, Bool.not_eq_true] at hc
      simp only [hc] at h
      split at h
      · rename_i hh
        simp at hh
        simp [hh]
        cases h
        rfl
      · rename_i hh
        simp at hh
        simp [hh] at h ⊢
        exact h.symm

theorem nav_doc {cfg : Cfg} {k : Nat} {nav : Prog} {d : Doc} {lg : List Comment} (hn : NavProg cfg nav)
    (h : nav.build k cfg.cm = .ok (d, lg)) : LinkStart cfg k d := by
  cases hn with
  | dot => simp only [Prog.t, Prog.build, Except.ok.injEq, Prod.mk.injEq] at h; rw [← h.1]; exact .dot
  | safe hs hp => exact .safe hs hp h

theorem builds_head {k : Nat} {cm : CMap} {p : Prog} {ps : List Prog} {ds : List Doc} {lg : List Comment}
    (h : Prog.builds k cm (p :: ps) = .ok (ds, lg)) :
    ∃ d l1 es l2, p.build k cm = .ok (d, l1) ∧ Prog.builds k cm ps = .ok (es, l2) ∧ ds = d :: es := by
  rw [Prog.builds] at h
  cases hp : p.build k cm with
  | error e => simp [hp] at h
  | ok r =>
    cases hs : Prog.builds k cm ps with
    | error e => simp [hp, hs] at h
    | ok r' =>
      simp only [hp, hs, Except.ok.injEq, Prod.mk.injEq] at h
      exact ⟨_, _, _, _, rfl, rfl, h.1.symm⟩

/-- The documents of a link after its receiver. -/
theorem exp_link {cfg : Cfg} {k : Nat} {a nav : Prog} {link : List Prog} {ds : List Doc} {lg : List Comment} (b : Bool)
    (hn : NavProg cfg nav) (h : Prog.builds k cfg.cm ([a] ++ (if b then [Prog.maybeline] else []) ++ nav :: link) = .ok (ds, lg)) :
    ∃ da la dn dl, a.build k cfg.cm = .ok (da, la) ∧ LinkStart cfg k dn ∧
      ∀ as, ExpandsTo da (row as) → ExpandsTo (.concat ds) (row (as ++ (if b then [.maybeline] else []) ++ dn :: dl)) := by
  rw [List.append_assoc, List.singleton_append] at h
  obtain ⟨da, la, es, l2, h1, h2, rfl⟩ := builds_head h
  cases b with
  | true =>
    simp only [if_true, List.singleton_append] at h2
    obtain ⟨d1, l3, es, l4, h3, h4, rfl⟩ := builds_head h2
    obtain ⟨dn, l5, dl, l6, h5, h6, rfl⟩ := builds_head h4
    simp only [Prog.build, Except.ok.injEq, Prod.mk.injEq] at h3
    refine ⟨da, la, dn, dl, h1, nav_doc hn h5, fun as ha => ?_⟩
    have := exp_cons ha (exp_concat (d1 :: dn :: dl))
    intro i fl rest
    have := this i fl rest
    rw [← h3.1] at this ⊢
    simpa [row] using this
  | false =>
    simp only [Bool.false_eq_true, if_false, List.nil_append] at h2
    obtain ⟨dn, l5, dl, l6, h5, h6, rfl⟩ := builds_head h2
    refine ⟨da, la, dn, dl, h1, nav_doc hn h5, fun as ha => ?_⟩
    have := exp_cons ha (exp_concat (dn :: dl))
    intro i fl rest
    have := this i fl rest
    simpa [row] using this

theorem exp_row_app {d : Doc} {pre mid post : List Doc}
    (h : ExpandsTo d (fun i fl => row pre i fl ++ row mid i fl ++ row post i fl)) : ExpandsTo d (row (pre ++ mid ++ post)) := by
  intro i fl rest
  have := h i fl rest
  simpa [row] using this

/-- An array access adds nothing to the layout of its receiver. -/
theorem exp_index {cfg : Cfg} {k : Nat} {fuel : Nat} {cls : Cls} {l : Loc} {c : Chain} {p : Prog} {d : Doc} {lg : List Comment}
    {b : Bool} (hok : (Chain.index l c).Ok cfg.cm) (hc : ExprCode cls) (hn : Prog.new cfg fuel cls l = .ok p)
    (hb : p.build k cfg.cm = .ok (d, lg))
    (ih : ∀ fuel cls p d lg, ExprCode cls → Prog.new cfg fuel cls c.node = .ok p → p.build k cfg.cm = .ok (d, lg) →
      ∃ ds, c.Row cfg k b ds ∧ ExpandsTo d (row ds)) :
    ∃ ds, (Chain.index l c).Row cfg k b ds ∧ ExpandsTo d (row ds) := by
  obtain ⟨hk, hq, hx, hok⟩ := hok
  obtain ⟨f, y, a, i, ha, hy, hi, rfl⟩ := expr_index hc hk hx hn
  obtain ⟨ds, lg', pre, post, h1, h2, h3⟩ := exp_bwcp hq hb
  obtain ⟨da, la, es1, l1, g1, k1, rfl⟩ := builds_head h1
  obtain ⟨d1, lb, es2, l2, g2, k2, rfl⟩ := builds_head k1
  obtain ⟨di, lc, es3, l3, g3, k3, rfl⟩ := builds_head k2
  obtain ⟨d2, ld, es4, l4, g4, k4, rfl⟩ := builds_head k3
  simp only [Prog.t, Prog.build, Prog.builds, Except.ok.injEq, Prod.mk.injEq] at g2 g4 k4
  rw [← g2.1, ← g4.1, ← k4.1] at h3
  obtain ⟨as, r, e⟩ := ih f _ a da _ (.inr (.inl rfl)) ha g1
  refine ⟨_, .index r hy hi g3 h2, exp_row_app (h3 _ ?_)⟩
  have := exp_cons e (exp_concat [txt "[".toList, di, txt "]".toList])
  intro i fl rest
  have := this i fl rest
  simpa [row] using this

theorem exp_chain {cfg : Cfg} {k : Nat} : ∀ (c : Chain) (fuel : Nat) (cls : Cls) (p : Prog) (d : Doc) (lg : List Comment),
    c.Ok cfg.cm → ChainAbove c.node → ExprCode cls → Prog.new cfg fuel cls c.node = .ok p → p.build k cfg.cm = .ok (d, lg) →
    ∃ ds, c.Row cfg k true ds ∧ ExpandsTo d (row ds)
  | .base x, fuel, cls, p, d, lg, _, _, hc, hn, hb => ⟨[d], .base hc hn hb, exp_self d⟩
  | .dot l c, fuel, cls, p, d, lg, ⟨hk, hq, hx, hok⟩, hup, hc, hn, hb => by
    obtain ⟨f, a, nav, link, ctx, ha, hnav, hctx, rfl⟩ := expr_dot hc hk hx hn
    rw [(context_chain hx hctx).1 hup, New.chainDoc] at hb
    simp only [Bool.true_or, if_true, Bool.false_eq_true, if_false] at hb
    obtain ⟨ds, lg', pre, post, h1, h2, h3⟩ := exp_bwcp hq hb
    obtain ⟨es, lg'', h4, rfl⟩ := builds_concat h1
    obtain ⟨da, la, dn, dl, g1, g2, g3⟩ := exp_link true hnav h4
    have habove : ChainAbove c.node := ⟨l, parent_of_try hx, by rcases hk with h | h <;> rw [h] <;> decide⟩
    obtain ⟨as, r, e⟩ := exp_chain c f _ a da la hok habove (.inr (.inr rfl)) ha g1
    exact ⟨_, .dot r g2 h2, exp_row_app (h3 _ (exp_one (g3 as e)))⟩
  | .index l c, fuel, cls, p, d, lg, hok, hup, hc, hn, hb =>
    exp_index hok hc hn hb (fun fuel cls p d lg hc hn hb =>
      exp_chain c fuel cls p d lg hok.2.2.2 ⟨l, parent_of_try hok.2.2.1, by rw [hok.1]; decide⟩ hc hn hb)

end Afmt
