import Verif.Chains
import Verif.PropsLoss

/-!
# Properties C46 and C47: chains are broken as a unit
-/

namespace Afmt.Gram
open Prog New

/-! ### C47 -/

theorem context_kinds {l : Loc} {ctx : BinaryContext} (h : binaryContext l = .ok ctx) :
    ∃ up, l.parent = some up ∧ ctx.isAChainingInnerNode = (up.kind == "binary_expression") ∧
      ctx.isParentReturnStatement = (up.kind == "return_statement") := by
  unfold binaryContext at h
  simp only [bind, Except.bind] at h
  split at h
  · cases h
  split at h
  · cases h
  cases hl : l.parent with
  | none => simp [hl] at h
  | some up =>
    simp only [hl] at h
    split at h
    · cases h
    cases h
    exact ⟨up, rfl, rfl, rfl⟩

/-- **C47**: a binary expression opens a layout group exactly if it does not stand directly in a binary expression of the
same precedence; the group is indented exactly if the expression stands in another binary expression or is returned. -/
theorem C47_group_iff (cfg : Cfg) (fuel prec : Nat) (l o x y : Loc) (p : Prog) (hk : l.kind = "binary_expression")
    (ho : l.cByN "operator" = .ok o) (hp : getPrecedence o.kind = .ok prec) (hx : l.cByN "left" = .ok x) (hy : l.cByN "right" = .ok y)
    (h : Prog.new cfg fuel .expression l = .ok p) :
    ∃ up f a b q, l.parent = some up ∧ Prog.new cfg f .expression x = .ok a ∧ Prog.new cfg f .expression y = .ok b ∧
      p = New.bwcp l [q] ∧
      (SameAbove prec l → q = .concat [a, .softline, .txt o.kind.toList, .txt [' '], b]) ∧
      (¬ SameAbove prec l → up.kind = "binary_expression" ∨ up.kind = "return_statement" →
        q = .group (.indent (.concat [a, .softline, .txt o.kind.toList, .txt [' '], b]))) ∧
      (¬ SameAbove prec l → ¬ (up.kind = "binary_expression" ∨ up.kind = "return_statement") →
        q = .group (.concat [a, .softline, .txt o.kind.toList, .txt [' '], b])) := by
  obtain ⟨f, a, b, ctx, ha, hb, hc, rfl⟩ := expr_binary hk ho hx hy h
  obtain ⟨up, hup, h1, h2⟩ := context_kinds hc
  have hs := context_same ho hp hc
  refine ⟨up, f, a, b, _, hup, ha, hb, rfl, ?_, ?_, ?_⟩
  · intro h
    rw [hs.2 h]; rfl
  · intro h hu
    have : ctx.hasParentSamePrecedence = false := by
      rw [← Bool.not_eq_true]; exact fun e => h (hs.1 e)
    rw [this, h1, h2, if_neg (by decide), if_neg (by simp only [Bool.and_eq_true, Bool.not_eq_true', beq_eq_false_iff_ne]; rcases hu with h | h <;> simp [h])]; rfl
  · intro h hu
    have : ctx.hasParentSamePrecedence = false := by
      rw [← Bool.not_eq_true]; exact fun e => h (hs.1 e)
    rw [this, h1, h2, if_neg (by decide), if_pos (by simpa using hu)]; rfl

/-- **C47**: a chain of binary operators of one precedence, which does not stand in a further binary expression of that
precedence, is laid out as one group: all operands and operators are printed at one indentation and in one mode, flat or
broken, with a line break opportunity before every operator, so that either all operators are preceded by a blank or all
begin a line.  Comments of the operators' nodes stand between. -/
theorem C47_break_together (cfg : Cfg) (fuel k prec : Nat) (l : Loc) (a : BinTree) (op : String) (b : BinTree) (p : Prog) (d : Doc)
    (lg : List Comment) (hok : (BinTree.bin l a op b).Ok cfg.cm prec) (htop : ¬ SameAbove prec l)
    (hn : Prog.new cfg fuel .expression l = .ok p) (hb : p.build k cfg.cm = .ok (d, lg)) :
    ∃ up pre g post as bs, l.parent = some up ∧ Adds cfg.cm l pre post ∧ a.Row cfg k as ∧ b.Row cfg k bs ∧
      ExpandsTo d (row (pre ++ [g] ++ post)) ∧
      ∀ w i fl rest st, ∃ m, (fl = true → m = true) ∧ prChunks w (⟨g, i, fl⟩ :: rest) st =
        prChunks w (row (as ++ [.softline, txt op.toList, txt [' ']] ++ bs)
          (if up.kind = "binary_expression" ∨ up.kind = "return_statement" then i + k else i) m ++ rest) st.flush := by
  obtain ⟨hk, hq, hp, ⟨o, ho, hop⟩, hx, hy, hoka, hokb⟩ := hok
  obtain ⟨up, f, pa, pb, q, hup, ha, hb', rfl, -, g1, g2⟩ := C47_group_iff cfg fuel prec l o _ _ p hk ho (hop ▸ hp) hx hy hn
  obtain ⟨ds, lg', pre, post, h1, h2, h3⟩ := exp_bwcp hq hb
  have above : ∀ {x : Loc} {f}, l.cByN f = .ok x → SameAbove prec x := fun h =>
    ⟨l, o, parent_of_cByN h, hk, ho, hop ▸ hp⟩
  obtain ⟨g, l1, es, l2, h4, h5, rfl⟩ := builds_head h1
  simp only [Prog.builds, Except.ok.injEq, Prod.mk.injEq] at h5
  rw [← h5.1] at h3
  have h3 := exp_row_app (mid := [g]) (h3 _ (exp_one (exp_self g)))
  have inner : ∀ {dd lg}, (Prog.concat [pa, .softline, .txt o.kind.toList, .txt [' '], pb]).build k cfg.cm = .ok (dd, lg) →
      ∃ as bs, a.Row cfg k as ∧ b.Row cfg k bs ∧ ExpandsTo dd (row (as ++ [.softline, txt op.toList, txt [' ']] ++ bs)) := by
    intro dd lg hdd
    rw [Prog.build] at hdd
    split at hdd
    · rename_i es _ hes
      cases hdd
      obtain ⟨da, la, db, lb, h6, h7, rfl⟩ := exp_op (op := o.kind) hes
      obtain ⟨as, r1, e1⟩ := exp_inner a f pa da la hoka (above hx) ha h6
      obtain ⟨bs, r2, e2⟩ := exp_inner b f pb db lb hokb (above hy) hb' h7
      exact ⟨as, bs, r1, r2, hop ▸ exp_ops e1 e2⟩
    · cases hdd
  by_cases hu : up.kind = "binary_expression" ∨ up.kind = "return_statement"
  · rw [g1 htop hu, Prog.build, Prog.build] at h4
    split at h4
    · rename_i dd _ hdd
      split at hdd
      · rename_i de _ hde
        cases hdd
        cases h4
        obtain ⟨as, bs, r1, r2, e⟩ := inner hde
        refine ⟨up, pre, _, post, as, bs, hup, h2, r1, r2, h3, fun w i fl rest st => ?_⟩
        obtain ⟨m, hm, e'⟩ := exp_group (exp_indent k e) w i fl rest st
        exact ⟨m, hm, by rw [if_pos hu]; exact e'⟩
      · cases hdd
    · cases h4
  · rw [g2 htop hu, Prog.build] at h4
    split at h4
    · rename_i dd _ hdd
      cases h4
      obtain ⟨as, bs, r1, r2, e⟩ := inner hdd
      refine ⟨up, pre, _, post, as, bs, hup, h2, r1, r2, h3, fun w i fl rest st => ?_⟩
      obtain ⟨m, hm, e'⟩ := exp_group e w i fl rest st
      exact ⟨m, hm, by rw [if_neg hu]; exact e'⟩
    · cases h4

/-- The strength levels of the binary operators, weakest first; `||` and `??` are treated as one level. -/
def levels : List (List String) :=
  [["||", "??"], ["&&"], ["|"], ["^"], ["&"], ["==", "!=", "===", "!==", "<>"], [">", "<", ">=", "<="],
    ["<<", ">>", ">>>"], ["+", "-"], ["*", "/", "%"]]

/-- The precedence, if there is one. -/
def precOf (op : String) : Option Nat := (getPrecedence op).toOption

/-- **C47**: every operator the grammar allows in a binary expression has a precedence (so no expression of the grammar
panics in `get_precedence`), two operators have the same precedence exactly if they are on one strength level, and
stronger levels have higher precedence. -/
theorem C47_operators_have_precedence :
    (∀ op ∈ binaryOps, (precOf op).isSome = true ∧ op ∈ levels.flatten) ∧
    (∀ a ∈ levels.flatten, ∀ b ∈ levels.flatten,
      (precOf a = precOf b ↔ levels.findIdx? (a ∈ ·) = levels.findIdx? (b ∈ ·)) ∧
      ((precOf a).getD 0 < (precOf b).getD 0 ↔ (levels.findIdx? (a ∈ ·)).getD 0 < (levels.findIdx? (b ∈ ·)).getD 0)) := by
  decide +kernel

/-- `return a + b - c * d;` -/
def exSum : Node := (numbered 1 (nd "return_statement" [tk "return", nd "binary_expression" [
  exField "left" (nd "binary_expression" [exField "left" (idn "a"), exField "operator" (tk "+"), exField "right" (idn "b")]),
  exField "operator" (tk "-"),
  exField "right" (nd "binary_expression" [exField "left" (idn "c"), exField "operator" (tk "*"), exField "right" (idn "d")])], tk ";"])).1

/-- The child of a location. -/
def Loc.at (l : Loc) (i : Nat) : Loc := l.children.getD i l

/-- The location of the chain in the example. -/
def exSumLoc : Loc := Loc.at (Loc.ofRoot exSum) 1

theorem dangling_of {cm : CMap} {l : Loc} (h : (cm.get? l.id).all (fun b => b.dangling.isEmpty) = true) : NoDangling cm l := by
  intro b hb
  rw [hb] at h
  simpa using h

theorem notSame_of {prec : Nat} {l : Loc} (h : (l.parent.all (fun p => p.kind != "binary_expression")) = true) : ¬ SameAbove prec l := by
  rintro ⟨p, o, h1, h2, -⟩
  rw [h1] at h
  simp [h2] at h

/-- The chain `a + b - (c * d)` of precedence 12 meets the hypotheses; the product is an operand. -/
example : (BinTree.bin exSumLoc (.bin (Loc.at exSumLoc 0) (.operand (Loc.at (Loc.at exSumLoc 0) 0)) "+"
      (.operand (Loc.at (Loc.at exSumLoc 0) 2))) "-" (.operand (Loc.at exSumLoc 2))).Ok (exCfg exSum).cm 12 ∧
    ¬ SameAbove 12 exSumLoc ∧
    ∃ p d lg, Prog.new (exCfg exSum) 20 .expression exSumLoc = .ok p ∧ p.build 2 (exCfg exSum).cm = .ok (d, lg) :=
  ⟨⟨by decide, dangling_of (by decide +kernel), rfl, ⟨_, rfl, by decide⟩, rfl, rfl,
      ⟨by decide, dangling_of (by decide +kernel), rfl, ⟨_, rfl, by decide⟩, rfl, rfl, trivial, trivial⟩, trivial⟩,
    notSame_of (by decide), _, _, _, rfl, rfl⟩

/-! ### C46 -/

/-- The node opens the group of a chain: it is an access with a dot, its receiver is an element of a chain, and it does
not stand in a further element. -/
def Opens (l : Loc) : Prop :=
  (l.kind = "method_invocation" ∨ l.kind = "field_access") ∧
  (∃ x, l.tryCByN "object" = some x ∧ isChainingKind x.kind = true) ∧ ¬ ChainAbove l

/-- **C46**: an access with a dot opens a group exactly if its receiver is again a chain element and it does not stand in
a chain element; a line break opportunity is before its dot exactly if its receiver is a chain element or it
stands in one. -/
theorem C46_group_iff (cfg : Cfg) (fuel : Nat) (cls : Cls) (l x : Loc) (p : Prog) (hc : ExprCode cls)
    (hk : l.kind = "method_invocation" ∨ l.kind = "field_access") (hx : l.tryCByN "object" = some x)
    (h : Prog.new cfg fuel cls l = .ok p) :
    ∃ f a nav link q, Prog.new cfg f .objectExpression x = .ok a ∧ NavProg cfg nav ∧ p = New.bwcp l [q] ∧
      (Opens l → q = .group (.indent (.concat (a :: .maybeline :: nav :: link)))) ∧
      (¬ Opens l → ChainAbove l → q = .concat (a :: .maybeline :: nav :: link)) ∧
      (¬ Opens l → ¬ ChainAbove l → q = .concat (a :: nav :: link)) := by
  obtain ⟨f, a, nav, link, ctx, ha, hnav, hctx, rfl⟩ := expr_dot hc hk hx h
  obtain ⟨c1, c2⟩ := context_chain hx hctx
  refine ⟨f, a, nav, link, _, ha, hnav, rfl, ?_, ?_, ?_⟩
  · rintro ⟨-, ⟨y, hy, hyk⟩, hup⟩
    rw [hx] at hy
    cases hy
    rw [c2 hup, if_pos hyk]; rfl
  · intro _ hup
    rw [c1 hup]; rfl
  · intro ho hup
    rw [c2 hup, if_neg (fun hy => ho ⟨hk, ⟨x, hx, hy⟩, hup⟩)]; rfl

/-- The accesses of a chain, outermost first. -/
def Chain.parts : Chain → List Loc
  | .base _ => []
  | .dot l c => l :: parts c
  | .index l c => l :: parts c

theorem parts_above {cm : CMap} : ∀ (c : Chain) (l : Loc), c.Ok cm → ChainAbove c.node → l ∈ Chain.parts c → ChainAbove l
  | .base _, _, _, _, h => nomatch h
  | .dot l c, l', ⟨hk, _, hx, hok⟩, hup, h => by
    rcases List.mem_cons.1 h with rfl | h
    · exact hup
    · exact parts_above c l' hok ⟨l, parent_of_try hx, by rcases hk with h | h <;> rw [h] <;> decide⟩ h
  | .index l c, l', ⟨hk, _, hx, hok⟩, hup, h => by
    rcases List.mem_cons.1 h with rfl | h
    · exact hup
    · exact parts_above c l' hok ⟨l, parent_of_try hx, by rw [hk]; decide⟩ h

/-- **C46**: at most one access of a chain opens a group, and it is the outermost. -/
theorem C46_one_group {cm : CMap} (c : Chain) (l : Loc) (hok : c.Ok cm) (hl : l ∈ Chain.parts c) (ho : Opens l) :
    l = c.node := by
  cases c with
  | base x => cases hl
  | dot m c =>
    rcases List.mem_cons.1 hl with rfl | h
    · rfl
    · exact absurd (parts_above c l hok.2.2.2 ⟨m, parent_of_try hok.2.2.1, by rcases hok.1 with h | h <;> rw [h] <;> decide⟩ h) ho.2.2
  | index m c =>
    rcases List.mem_cons.1 hl with rfl | h
    · rfl
    · exact absurd (parts_above c l hok.2.2.2 ⟨m, parent_of_try hok.2.2.1, by rw [hok.1]; decide⟩ h) ho.2.2

/-- The number of elements of a chain. -/
def Chain.size : Chain → Nat
  | .base x => if isChainingKind x.kind then 1 else 0
  | .dot _ c => size c + 1
  | .index _ c => size c + 1

theorem size_pos {cm : CMap} (c : Chain) (hok : c.Ok cm) : 1 ≤ Chain.size c ↔ isChainingKind c.node.kind = true := by
  cases c with
  | base x => rw [Chain.size]; split <;> rename_i h <;> simp [Chain.node, h]
  | dot l c =>
    have : isChainingKind l.kind = true := by rcases hok.1 with h | h <;> rw [h] <;> decide
    simp [Chain.size, Chain.node, this]
  | index l c =>
    have : isChainingKind l.kind = true := by rw [hok.1]; decide
    simp [Chain.size, Chain.node, this]

/-- **C46**: a chain that ends in an access with a dot and does not stand in a further chain element: if it has at least two
elements it is laid out as one indented group in which every dot has a line break opportunity and all of them
are used or none is; if the dot is its only element there is no line break opportunity.  Missing for the full
statement: chains that end in an array access and chains in an array index, for which it is false (see below). -/
theorem C46_break_together_partial (cfg : Cfg) (fuel k : Nat) (cls : Cls) (l : Loc) (c : Chain) (p : Prog) (d : Doc) (lg : List Comment)
    (hok : (Chain.dot l c).Ok cfg.cm) (htop : ¬ ChainAbove l) (hc : ExprCode cls) (hn : Prog.new cfg fuel cls l = .ok p)
    (hb : p.build k cfg.cm = .ok (d, lg)) :
    (2 ≤ Chain.size (.dot l c) → ∃ pre g post ds nav link, Adds cfg.cm l pre post ∧ c.Row cfg k true ds ∧ LinkStart cfg k nav ∧
      ExpandsTo d (row (pre ++ [g] ++ post)) ∧
      ∀ w i fl rest st, ∃ m, (fl = true → m = true) ∧ prChunks w (⟨g, i, fl⟩ :: rest) st =
        prChunks w (row (ds ++ [.maybeline] ++ nav :: link) (i + k) m ++ rest) st.flush) ∧
    (Chain.size (.dot l c) = 1 → ∃ ds, (Chain.dot l c).Row cfg k false ds ∧ ExpandsTo d (row ds)) := by
  obtain ⟨hk, hq, hx, hok'⟩ := hok
  obtain ⟨f, a, nav, link, q, ha, hnav, rfl, g1, -, g3⟩ := C46_group_iff cfg fuel cls l c.node p hc hk hx hn
  obtain ⟨ds, lg', pre, post, h1, h2, h3⟩ := exp_bwcp hq hb
  have habove : ChainAbove c.node := ⟨l, parent_of_try hx, by rcases hk with h | h <;> rw [h] <;> decide⟩
  constructor
  · intro hs
    have hop : Opens l := ⟨hk, ⟨_, hx, (size_pos c hok').1 (by rw [Chain.size] at hs; omega)⟩, htop⟩
    rw [g1 hop] at h1
    obtain ⟨g, l1, es, l2, h4, h5, rfl⟩ := builds_head h1
    simp only [Prog.builds, Except.ok.injEq, Prod.mk.injEq] at h5
    rw [← h5.1] at h3
    have h3 := exp_row_app (mid := [g]) (h3 _ (exp_one (exp_self g)))
    rw [Prog.build, Prog.build, Prog.build] at h4
    split at h4
    · rename_i dd _ hdd
      split at hdd
      · rename_i de _ hde
        split at hde
        · rename_i df _ hdf
          cases hde
          cases hdd
          cases h4
          obtain ⟨da, la, dn, dl, e1, e2, e3⟩ := exp_link true hnav hdf
          obtain ⟨as, r, e⟩ := exp_chain c f _ a da la hok' habove (.inr (.inr rfl)) ha e1
          refine ⟨pre, _, post, as, dn, dl, h2, r, e2, h3, fun w i fl rest st => ?_⟩
          exact exp_group (exp_indent k (e3 as e)) w i fl rest st
        · cases hde
      · cases hdd
    · cases h4
  · intro hs
    have hnc : ¬ isChainingKind c.node.kind = true := fun h => by
      have := (size_pos c hok').2 h
      rw [Chain.size] at hs
      omega
    have hop : ¬ Opens l := by
      rintro ⟨-, ⟨y, hy, hyk⟩, -⟩
      rw [hx] at hy
      cases hy
      exact hnc hyk
    rw [g3 hop htop] at h1
    obtain ⟨es, lg'', h4, rfl⟩ := builds_concat h1
    obtain ⟨da, la, dn, dl, e1, e2, e3⟩ := exp_link false hnav h4
    cases c with
    | base x =>
      exact ⟨_, .dot (.base (.inr (.inr rfl)) ha e1) e2 h2, exp_row_app (h3 _ (exp_one (e3 _ (exp_self da))))⟩
    | dot m c => exact absurd (by rcases hok'.1 with h | h <;> rw [Chain.node, h] <;> decide) hnc
    | index m c => exact absurd (by rw [Chain.node, hok'.1]; decide) hnc

/-- **C46 fails** for a chain that ends in an array access or stands in an array index: nothing opens a group, every dot has
a line break opportunity and takes the mode of the surroundings, so outside of other groups every dot begins a line however
short the chain is. -/
theorem C46_no_group (cfg : Cfg) (fuel k : Nat) (cls : Cls) (c : Chain) (p : Prog) (d : Doc) (lg : List Comment)
    (hok : c.Ok cfg.cm) (htop : ChainAbove c.node ∨ c.node.kind = "array_access") (hc : ExprCode cls)
    (hn : Prog.new cfg fuel cls c.node = .ok p) (hb : p.build k cfg.cm = .ok (d, lg)) :
    (∀ l ∈ Chain.parts c, ¬ Opens l) ∧ ∃ ds, c.Row cfg k true ds ∧ ExpandsTo d (row ds) := by
  constructor
  · intro l hl ho
    have := C46_one_group c l hok hl ho
    subst this
    rcases htop with h | h
    · exact ho.2.2 h
    · rcases ho.1 with h' | h' <;> rw [h] at h' <;> exact absurd h' (by decide)
  · rcases htop with h | h
    · exact exp_chain c fuel cls p d lg hok h hc hn hb
    · cases c with
      | base x => exact ⟨[d], .base hc hn hb, exp_self d⟩
      | dot l c => rcases hok.1 with h' | h' <;> rw [Chain.node] at h <;> rw [h] at h' <;> exact absurd h' (by decide)
      | index l c =>
        exact exp_index hok hc hn hb (fun fuel cls p d lg hc hn hb =>
          exp_chain c fuel cls p d lg hok.2.2.2 ⟨l, parent_of_try hok.2.2.1, by rw [hok.1]; decide⟩ hc hn hb)

/-- `a.b()` -/
def exDot (a : Node) (b : String) : Node := nd "method_invocation" [exField "object" a, tk ".", exField "name" (idn b),
  exField "arguments" (nd "argument_list" [tk "(", tk ")"])]
/-- `a[b]` -/
def exIdx (a b : Node) : Node := nd "array_access" [exField "array" a, tk "[", exField "index" b, tk "]"]
/-- `return e;` -/
def exReturn (e : Node) : Node := nd "return_statement" [tk "return", e, tk ";"]

/-- `return a.b()[0].c();` -/
def exChain : Node := (numbered 1 (exReturn (exDot (exIdx (exDot (idn "a") "b") (lf "int" "0")) "c"))).1

/-- The chain meets the hypotheses. -/
example : (Chain.dot (Loc.at (Loc.ofRoot exChain) 1) (.index (Loc.at (Loc.at (Loc.ofRoot exChain) 1) 0)
      (.dot (Loc.at (Loc.at (Loc.at (Loc.ofRoot exChain) 1) 0) 0)
        (.base (Loc.at (Loc.at (Loc.at (Loc.at (Loc.ofRoot exChain) 1) 0) 0) 0))))).Ok (exCfg exChain).cm ∧
    (∃ p d lg, Prog.new (exCfg exChain) 20 .expression (Loc.at (Loc.ofRoot exChain) 1) = .ok p ∧
      p.build 2 (exCfg exChain).cm = .ok (d, lg)) :=
  ⟨⟨.inl (by decide), dangling_of (by decide +kernel), rfl, by decide, dangling_of (by decide +kernel), rfl,
    .inl (by decide), dangling_of (by decide +kernel), rfl, trivial⟩, _, _, _, rfl, rfl⟩

example : ¬ ChainAbove (Loc.at (Loc.ofRoot exChain) 1) := by
  rintro ⟨p, h1, h2⟩
  cases h1
  exact absurd h2 (by decide)

/-- `return a.b().c();` fits on a line and is not broken. -/
example : formatTree true 60 ⟨80, 2⟩ (methodOf [exReturn (exDot (exDot (idn "a") "b") "c")]) =
    .ok "class A {
  void m() {
    return a.b().c();
  }
}
".toList := by decide +kernel

/-- **C46 is false** for `return a.b()[0];` and `return x[a.b()];`: the dot begins a line although everything fits, in the
second case although the chain `a.b()` has a single link. -/
theorem C46_array_access_broken :
    let t1 := methodOf [exReturn (exIdx (exDot (idn "a") "b") (lf "int" "0"))]
    let t2 := methodOf [exReturn (exIdx (idn "x") (exDot (idn "a") "b"))]
    Parsed t1 ∧ conforms t1 = true ∧
    formatTree true 60 ⟨80, 2⟩ t1 = .ok "class A {
  void m() {
    return a
    .b()[0];
  }
}
".toList ∧
    Parsed t2 ∧ conforms t2 = true ∧
    formatTree true 60 ⟨80, 2⟩ t2 = .ok "class A {
  void m() {
    return x[a
    .b()];
  }
}
".toList :=
  ⟨⟨closedB_iff _ (by decide), by decide, by decide⟩, by decide +kernel, by decide +kernel,
   ⟨closedB_iff _ (by decide), by decide, by decide⟩, by decide +kernel, by decide +kernel⟩

end Afmt.Gram
